import Verif.Model.Double
/-!
# Contraction of `a * b + c`

Compilers may compute `a * b + c` and `a * b - c` as one operation with a single rounding: C++ leaves it to the implementation, GCC does so
by default if the target has such an instruction, and so does `nvcc`. A product that is not rounded yet is added here when its
value is not needed otherwise. Whether an operation is contracted is a parameter.

In `node_penalty` and `edge_penalty` (`disparity_graph.cpp:184-206`) the first summand is a product. There are no other products but squares, whose
factors are differences, in the whole computation.
-/
namespace SP
open FloatOps

namespace Ieee
variable {fmt : Format}

/-- `a * b + c` with a single rounding, `fusedMultiplyAdd` of IEEE 754. -/
def fma : Ieee fmt → Ieee fmt → Ieee fmt → Ieee fmt
  | fin s m, fin t n, fin r l =>
    let product := if s ^^ t then -(m.1 * n.1) else m.1 * n.1
    if product + signed r l = 0 then signedZero ((s ^^ t) && r)
    else rounded (decide (product + signed r l < 0)) (product + signed r l)
  | fin _ _, fin _ _, inf r => inf r
  | a, b, c => plus (times a b) c

end Ieee

/-- Numbers of a format and products that are not computed yet. The parameter says which of operations are contracted. -/
inductive Contracted (fmt : Format) (fused : Ieee fmt → Ieee fmt → Ieee fmt → Bool) where
  | value (v : Ieee fmt)
  | product (a b : Ieee fmt)

namespace Contracted
variable {fmt : Format} {fused : Ieee fmt → Ieee fmt → Ieee fmt → Bool}

/-- The number, rounded now if it is a product. -/
def force : Contracted fmt fused → Ieee fmt
  | value v => v
  | product a b => a.times b

/-- `x + y` -/
def plus : Contracted fmt fused → Contracted fmt fused → Ieee fmt
  | product a b, y => if fused a b y.force then a.fma b y.force else (a.times b).plus y.force
  | value v, product a b => if fused a b v then a.fma b v else v.plus (a.times b)
  | value v, value u => v.plus u

/-- `x - y` -/
def minus : Contracted fmt fused → Contracted fmt fused → Ieee fmt
  | product a b, y => if fused a b y.force.opposite then a.fma b y.force.opposite else (a.times b).plus y.force.opposite
  | value v, product a b => if fused a.opposite b v then a.opposite.fma b v else v.plus (a.times b).opposite
  | value v, value u => v.plus u.opposite

instance : FloatOps (Contracted fmt fused) where
  add x y := value (x.plus y)
  sub x y := value (x.minus y)
  mul x y := product x.force y.force
  ofNat n := value (ofNat n)
  minusOne := value minusOne
  epsilon := value epsilon
  le x y := le x.force y.force
  lt x y := lt x.force y.force
  eq x y := eq x.force y.force

end Contracted
end SP
