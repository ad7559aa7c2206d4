import Verif.Model.Types
/-!
# Integers as an instance of the floating point operations

Used for concrete examples and counterexamples which the kernel evaluates. On the values that occur there (small
integers) IEEE 754 `double` computes the same results, as integers below `2^53` are represented exactly. Machine epsilon
lies between `0` and `1`; comparing an integer with it is the same as comparing with `1`.
-/
namespace SP

instance : FloatOps Int where
  add := Int.add
  sub := Int.sub
  mul := Int.mul
  ofNat := Int.ofNat
  minusOne := -1
  epsilon := 1
  le a b := decide (a ≤ b)
  lt a b := decide (a < b)
  eq a b := decide (a = b)

/-- A small image given by its rows. -/
def img (w h m : UInt64) (data : List UInt64) : Image :=
  { width := w, height := h, maxValue := m, data := data.toArray }

/-- A graph with zero reparametrization. -/
def graphOf (w h m levels : UInt64) (left right : List UInt64) (cleanness smoothness : Int) :
    DisparityGraph Int :=
  { left := img w h m left
    right := img w h m right
    disparityLevels := levels
    reparametrization := Array.replicate (w * h * 4 * levels).toNat 0
    cleanness := cleanness
    smoothness := smoothness }

end SP
