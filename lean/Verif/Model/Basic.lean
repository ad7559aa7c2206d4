/-!
# Outcomes, arrays, loops and floating point operations of the code model
-/
namespace SP

/-- C++ exceptions thrown by the modelled code. The text is the constant part of the message. -/
inductive Exc where
  /-- `std::invalid_argument` -/
  | invalidArgument (what : String)
  /-- `std::logic_error` (thrown directly) -/
  | logicError (what : String)
  /-- `std::out_of_range` (thrown by `std::stoul`) -/
  | outOfRange
  /-- `std::length_error` (thrown by `std::vector::resize`) -/
  | lengthError
  /-- `std::bad_alloc` -/
  | badAlloc
  /-- an exception of another type derived from `std::exception` -/
  | other (what : String)
  deriving DecidableEq, Repr

/-- Ways in which a modelled function may fail to return a value. -/
inductive Err where
  /-- Undefined behaviour: `std::vector::operator[]` with an index that is not below `size()`. -/
  | ub
  /-- A loop that does not terminate. -/
  | nonterm
  /-- A C++ exception leaves the function. -/
  | exc (e : Exc)
  /-- The process is ended by `exit(0)` (`cuda_csp.cu:42-48`). -/
  | exit
  deriving DecidableEq, Repr

/-- Result of a modelled function: a value, or one of the outcomes of `Err`. -/
abbrev M := Except Err

/-- `a[i]` as an rvalue. `std::vector::operator[]` does not check the index: an index outside is undefined
behaviour (`types.hpp:59,71,82` define all arrays as `std::vector`). -/
def rd {α : Type} (a : Array α) (i : UInt64) : M α :=
  match a[i.toNat]? with
  | some v => .ok v
  | none => .error .ub

/-- `a[i] = v`. An index outside is undefined behaviour. -/
def wr {α : Type} (a : Array α) (i : UInt64) (v : α) : M (Array α) :=
  if i.toNat < a.size then .ok (a.setIfInBounds i.toNat v) else .error .ub

/-- The C loop `for (i = i₀; cond(i); i = step(i)) body`, with `s` the variables assigned by the body.
The body returns the new variables and whether it executed `break` (or left the loop by `return`).
`fuel` bounds the number of iterations; if the condition still holds after that many iterations, the outcome is `nonterm`.
Each use states why its fuel suffices for every terminating execution. -/
def cfor {ι σ : Type} (fuel : Nat) (i : ι) (cond : ι → Bool) (step : ι → ι)
    (body : ι → σ → M (σ × Bool)) (s : σ) : M σ :=
  match fuel with
  | 0 => if cond i then .error .nonterm else .ok s
  | fuel + 1 =>
    if cond i then
      match body i s with
      | .error e => .error e
      | .ok (s', true) => .ok s'
      | .ok (s', false) => cfor fuel (step i) cond step body s'
    else .ok s

/-- The C loop `while (cond(s)) body`, with `s` the variables. The body returns the new variables and whether it left the loop.
`fuel` is as for `cfor`. -/
def cwhile {σ : Type} (fuel : Nat) (cond : σ → Bool) (body : σ → M (σ × Bool)) (s : σ) : M σ :=
  match fuel with
  | 0 => if cond s then .error .nonterm else .ok s
  | fuel + 1 =>
    if cond s then
      match body s with
      | .error e => .error e
      | .ok (s', true) => .ok s'
      | .ok (s', false) => cwhile fuel cond body s'
    else .ok s

/-- `++i` for `ULONG i`. -/
def inc (i : UInt64) : UInt64 := i + 1

/-- Operations on `FLOAT` (`double` on CPU, `types.hpp:65`; `float` on GPU, `types.hpp:91,103`) used by the code.
No law is assumed here. Comparisons return what the C++ comparison returns. -/
class FloatOps (F : Type) where
  /-- `a + b` -/
  add : F → F → F
  /-- `a - b` -/
  sub : F → F → F
  /-- `a * b` -/
  mul : F → F → F
  /-- `TO_FLOAT(x)`: `static_cast<FLOAT>` of a `ULONG` (`disparity_graph.cpp:32`). -/
  ofNat : Nat → F
  /-- the literal `-1` converted to `FLOAT` (`labeling_finder.cpp:268`) -/
  minusOne : F
  /-- `std::numeric_limits<FLOAT>::epsilon()` -/
  epsilon : F
  /-- `a <= b` -/
  le : F → F → Bool
  /-- `a < b` -/
  lt : F → F → Bool
  /-- `a == b` -/
  eq : F → F → Bool

namespace FloatOps
/-- the literal `0` converted to `FLOAT` -/
def zero {F : Type} [FloatOps F] : F := ofNat 0

/-- `SQR(x)`, `disparity_graph.cpp:44`. -/
def sqr {F : Type} [FloatOps F] (x : F) : F := mul x x

/-- `MIN(x, y)`, `lowest_penalties.hpp:30`: `(((x) <= (y)) ? (x) : (y))`. -/
def min' {F : Type} [FloatOps F] (x y : F) : F := if le x y then x else y
end FloatOps

end SP
