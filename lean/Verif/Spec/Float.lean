import Verif.Model.Basic
/-!
# Laws of `FLOAT` used by the theorems

The model (`FloatOps`) assumes nothing about arithmetic. Theorems that need laws ask for `LawfulFloat`. These laws do not
include associativity, distributivity or exactness: they hold for rounded arithmetic too (see `Spec/FloatInstances.lean`
for the integers, the rationals and for floating point numbers with any monotone rounding and unbounded exponent).
They do not hold when a result overflows to infinity or is NaN. The two zeros of IEEE 754 are one number here.
-/
namespace SP
open FloatOps

/-- `FLOAT` behaves like an ordered set of numbers with monotone operations. -/
class LawfulFloat (F : Type) [FloatOps F] : Prop where
  le_total : ∀ a b : F, le a b = true ∨ le b a = true
  le_trans : ∀ a b c : F, le a b = true → le b c = true → le a c = true
  le_antisymm : ∀ a b : F, le a b = true → le b a = true → a = b
  /-- `<` is the negation of the reversed `<=` -/
  lt_iff : ∀ a b : F, lt a b = true ↔ le b a = false
  /-- `==` is equality -/
  eq_iff : ∀ a b : F, eq a b = true ↔ a = b
  add_zero : ∀ a : F, add a zero = a
  add_mono : ∀ a b c d : F, le a b = true → le c d = true → le (add a c) (add b d) = true
  sub_zero : ∀ a : F, sub a zero = a
  sub_self : ∀ a : F, sub a a = zero
  sub_mono : ∀ a b c : F, le a b = true → le (sub a c) (sub b c) = true
  sub_anti : ∀ a b c : F, le a b = true → le (sub c b) (sub c a) = true
  mul_zero : ∀ a : F, mul a zero = zero
  mul_mono : ∀ a b c : F, le zero a = true → le b c = true → le (mul a b) (mul a c) = true
  sqr_nonneg : ∀ a : F, le zero (sqr a) = true
  sqr_mono : ∀ a b : F, le zero a = true → le a b = true → le (sqr a) (sqr b) = true
  /-- the square of a difference does not depend on the order -/
  sqr_sub_comm : ∀ a b : F, sqr (sub a b) = sqr (sub b a)
  ofNat_mono : ∀ m n : Nat, m ≤ n → le (ofNat m : F) (ofNat n) = true
  minusOne_neg : lt (minusOne : F) zero = true
  epsilon_pos : lt (zero : F) epsilon = true

end SP
