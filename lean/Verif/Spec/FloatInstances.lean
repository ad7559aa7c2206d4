import Verif.Spec.Float
import Verif.Spec.IntFloat
import Mathlib.Data.Rat.Cast.Order
import Mathlib.Algebra.Order.Ring.Abs
import Mathlib.Tactic.Linarith
import Mathlib.Tactic.Positivity
import Mathlib.Tactic.Ring
import Mathlib.Algebra.Order.Floor.Ring
import Mathlib.Algebra.Order.Archimedean.Basic
/-!
# Arithmetics that satisfy the laws

* `ExactFloat`: the operations are those of an ordered commutative ring. Integers and rationals are instances.
* `Rounding.Num`: numbers representable under a rounding function, with each operation rounded. Round-to-nearest binary
  arithmetic with unbounded exponent (IEEE 754 without overflow and underflow) is of this form.
* `NanInt`: integers extended with a value that compares false with everything. It violates the laws and is used for
  counterexamples.
-/
namespace SP
open FloatOps

/-- The operations are exact operations of an ordered commutative ring. -/
class ExactFloat (F : Type) [FloatOps F] [CommRing F] [LinearOrder F] [IsStrictOrderedRing F] : Prop where
  add_eq : ∀ a b : F, add a b = a + b
  sub_eq : ∀ a b : F, sub a b = a - b
  mul_eq : ∀ a b : F, mul a b = a * b
  ofNat_eq : ∀ n : Nat, (ofNat n : F) = n
  minusOne_eq : (minusOne : F) = -1
  epsilon_gt : (0 : F) < epsilon
  le_eq : ∀ a b : F, le a b = true ↔ a ≤ b
  lt_eq : ∀ a b : F, lt a b = true ↔ a < b
  eq_eq : ∀ a b : F, eq a b = true ↔ a = b

namespace ExactFloat
variable {F : Type} [FloatOps F] [CommRing F] [LinearOrder F] [IsStrictOrderedRing F] [ExactFloat F]

theorem zero_eq : (zero : F) = 0 := by simp [zero, ofNat_eq]

theorem sqr_eq (a : F) : sqr a = a * a := by simp [sqr, mul_eq]

theorem le_false (a b : F) : le a b = false ↔ b < a := by
  rw [← not_le, ← le_eq]; simp

end ExactFloat

open ExactFloat in
instance {F : Type} [FloatOps F] [CommRing F] [LinearOrder F] [IsStrictOrderedRing F] [ExactFloat F] :
    LawfulFloat F where
  le_total a b := by simpa [le_eq] using le_total a b
  le_trans a b c := by simpa [le_eq] using le_trans
  le_antisymm a b := by simpa [le_eq] using le_antisymm
  lt_iff a b := by rw [lt_eq, le_false]
  eq_iff a b := eq_eq a b
  add_zero a := by simp [add_eq, zero_eq]
  add_mono a b c d := by simpa [le_eq, add_eq] using add_le_add
  sub_zero a := by simp [sub_eq, zero_eq]
  sub_self a := by simp [sub_eq, zero_eq]
  sub_mono a b c := by simp [le_eq, sub_eq]
  sub_anti a b c := by
    simp only [le_eq, sub_eq]
    exact fun h => sub_le_sub_left h _
  mul_zero a := by simp [mul_eq, zero_eq]
  mul_mono a b c := by
    simp only [le_eq, mul_eq, zero_eq]
    exact fun h h' => mul_le_mul_of_nonneg_left h' h
  sqr_nonneg a := by simpa [le_eq, sqr_eq, zero_eq] using mul_self_nonneg a
  sqr_mono a b := by
    simp only [le_eq, sqr_eq, zero_eq]
    exact fun h h' => mul_self_le_mul_self h h'
  sqr_sub_comm a b := by simp only [sqr_eq, sub_eq]; ring
  ofNat_mono m n h := by simpa [le_eq, ofNat_eq] using h
  minusOne_neg := by simp [lt_eq, minusOne_eq, zero_eq]
  epsilon_pos := by simpa [lt_eq, zero_eq] using epsilon_gt

instance : ExactFloat Int where
  add_eq _ _ := rfl
  sub_eq _ _ := rfl
  mul_eq _ _ := rfl
  ofNat_eq _ := rfl
  minusOne_eq := rfl
  epsilon_gt := by decide
  le_eq a b := by simp [le]
  lt_eq a b := by simp [lt]
  eq_eq a b := by simp [eq]

instance : FloatOps ℚ where
  add a b := a + b
  sub a b := a - b
  mul a b := a * b
  ofNat n := n
  minusOne := -1
  epsilon := 1 / 2 ^ 52
  le a b := decide (a ≤ b)
  lt a b := decide (a < b)
  eq a b := decide (a = b)

instance : ExactFloat ℚ where
  add_eq _ _ := rfl
  sub_eq _ _ := rfl
  mul_eq _ _ := rfl
  ofNat_eq _ := rfl
  minusOne_eq := rfl
  epsilon_gt := by norm_num [epsilon]
  le_eq a b := by simp [le]
  lt_eq a b := by simp [lt]
  eq_eq a b := by simp [eq]

/-- A rounding function: monotone, idempotent, odd, exact on `1`. -/
structure Rounding where
  rnd : ℚ → ℚ
  mono : Monotone rnd
  idem : ∀ x, rnd (rnd x) = rnd x
  odd : ∀ x, rnd (-x) = - rnd x
  one : rnd 1 = 1
  /-- machine epsilon -/
  eps : ℚ
  eps_pos : 0 < eps
  eps_rep : rnd eps = eps

namespace Rounding
variable (R : Rounding)

theorem zero' : R.rnd 0 = 0 := by
  have := R.odd 0
  simp only [neg_zero] at this
  linarith

/-- Representable numbers. -/
def Num : Type := { x : ℚ // R.rnd x = x }

/-- The rounded value as a representable number. -/
def round (x : ℚ) : R.Num := ⟨R.rnd x, R.idem x⟩

open Classical in
/-- Each operation is the exact one followed by rounding. -/
noncomputable instance : FloatOps R.Num where
  add a b := R.round (a.1 + b.1)
  sub a b := R.round (a.1 - b.1)
  mul a b := R.round (a.1 * b.1)
  ofNat n := R.round n
  minusOne := R.round (-1)
  epsilon := ⟨R.eps, R.eps_rep⟩
  le a b := decide (a.1 ≤ b.1)
  lt a b := decide (a.1 < b.1)
  eq a b := decide (a = b)

theorem rnd_nonneg {x : ℚ} (h : 0 ≤ x) : 0 ≤ R.rnd x := by
  have := R.mono h
  rwa [R.zero'] at this

@[simp] theorem zero_val : (zero : R.Num).1 = 0 := by
  show R.rnd ((0 : ℕ) : ℚ) = 0
  simp [R.zero']

instance : LawfulFloat R.Num where
  le_total a b := by simpa [le] using le_total a.1 b.1
  le_trans a b c := by simpa [le] using le_trans
  le_antisymm a b := by
    simp only [le, decide_eq_true_eq]
    exact fun h h' => Subtype.ext (le_antisymm h h')
  lt_iff a b := by simp [le, lt]
  eq_iff a b := by simp [eq]
  add_zero a := by
    apply Subtype.ext
    show R.rnd (a.1 + (zero : R.Num).1) = a.1
    rw [zero_val, _root_.add_zero, a.2]
  add_mono a b c d := by
    simp only [le, add, decide_eq_true_eq]
    exact fun h h' => R.mono (add_le_add h h')
  sub_zero a := by
    apply Subtype.ext
    show R.rnd (a.1 - (zero : R.Num).1) = a.1
    rw [zero_val, _root_.sub_zero, a.2]
  sub_self a := by
    apply Subtype.ext
    show R.rnd (a.1 - a.1) = (zero : R.Num).1
    rw [zero_val, _root_.sub_self, R.zero']
  sub_mono a b c := by
    simp only [le, sub, decide_eq_true_eq]
    exact fun h => R.mono (sub_le_sub_right h _)
  sub_anti a b c := by
    simp only [le, sub, decide_eq_true_eq]
    exact fun h => R.mono (sub_le_sub_left h _)
  mul_zero a := by
    apply Subtype.ext
    show R.rnd (a.1 * (zero : R.Num).1) = (zero : R.Num).1
    rw [zero_val, MulZeroClass.mul_zero, R.zero']
  mul_mono a b c := by
    simp only [le, mul, decide_eq_true_eq, zero_val]
    exact fun h h' => R.mono (mul_le_mul_of_nonneg_left h' h)
  sqr_nonneg a := by
    simp only [le, sqr, mul, decide_eq_true_eq, zero_val]
    exact R.rnd_nonneg (mul_self_nonneg _)
  sqr_mono a b := by
    simp only [le, sqr, mul, decide_eq_true_eq, zero_val]
    intro h h'
    exact decide_eq_true (R.mono (mul_self_le_mul_self h h'))
  sqr_sub_comm a b := by
    apply Subtype.ext
    show R.rnd (R.rnd (a.1 - b.1) * R.rnd (a.1 - b.1)) = R.rnd (R.rnd (b.1 - a.1) * R.rnd (b.1 - a.1))
    rw [← neg_sub b.1 a.1, R.odd, neg_mul_neg]
  ofNat_mono m n h := by
    simp only [le, decide_eq_true_eq]
    exact R.mono (by exact_mod_cast h)
  minusOne_neg := by
    simp only [lt, decide_eq_true_eq, zero_val]
    show R.rnd (-1) < 0
    rw [R.odd, R.one]
    norm_num
  epsilon_pos := by
    simp only [lt, decide_eq_true_eq, zero_val]
    exact R.eps_pos

end Rounding

/-- Rounding down of the absolute value to a multiple of `1/4` is a rounding function: the notion is inhabited by a
function that does round. -/
noncomputable example : Rounding where
  rnd x := if 0 ≤ x then (⌊4 * x⌋ : ℚ) / 4 else - ((⌊4 * (-x)⌋ : ℚ) / 4)
  mono := by
    intro x y h
    have key : ∀ z : ℚ, 0 ≤ z → 0 ≤ (⌊4 * z⌋ : ℚ) := fun z hz => by
      exact_mod_cast Int.floor_nonneg.2 (by linarith)
    by_cases hx : 0 ≤ x
    · have hy : 0 ≤ y := le_trans hx h
      have : (⌊4 * x⌋ : ℚ) ≤ ⌊4 * y⌋ := by exact_mod_cast Int.floor_le_floor (by linarith)
      simp only [hx, hy, if_true]
      linarith
    · by_cases hy : 0 ≤ y
      · have h1 := key (-x) (by linarith)
        have h2 := key y hy
        simp only [hx, hy, if_true, if_false]
        linarith
      · have : (⌊4 * (-y)⌋ : ℚ) ≤ ⌊4 * (-x)⌋ := by exact_mod_cast Int.floor_le_floor (by linarith)
        simp only [hx, hy, if_false]
        linarith
  idem x := by
    have e : ∀ n : ℤ, (4 : ℚ) * ((n : ℚ) / 4) = n := fun n => by ring
    by_cases hx : 0 ≤ x
    · have h1 : (0 : ℚ) ≤ (⌊4 * x⌋ : ℚ) / 4 := by
        have : (0 : ℤ) ≤ ⌊4 * x⌋ := Int.floor_nonneg.2 (by linarith)
        have : (0 : ℚ) ≤ ⌊4 * x⌋ := by exact_mod_cast this
        linarith
      simp only [hx, h1, if_true, e, Int.floor_intCast]
    · by_cases h0 : ⌊4 * (-x)⌋ = 0
      · simp only [hx, h0, if_false]
        simp
      · have h1 : ¬ (0 : ℚ) ≤ - ((⌊4 * (-x)⌋ : ℚ) / 4) := by
          have h2 : (0 : ℤ) ≤ ⌊4 * (-x)⌋ := Int.floor_nonneg.2 (by linarith)
          have h3 : (1 : ℤ) ≤ ⌊4 * (-x)⌋ := by omega
          have : (1 : ℚ) ≤ ⌊4 * (-x)⌋ := by exact_mod_cast h3
          linarith
        simp only [hx, h1, if_false, neg_neg, e, Int.floor_intCast]
  odd x := by
    rcases lt_trichotomy x 0 with h | h | h
    · have h1 : ¬ 0 ≤ x := by linarith
      have h2 : 0 ≤ -x := by linarith
      simp [h1, h2]
    · simp [h]
    · have h1 : 0 ≤ x := by linarith
      have h2 : ¬ 0 ≤ -x := by linarith
      simp only [h1, h2, if_true, if_false, neg_neg]
  one := by norm_num
  eps := 1 / 4
  eps_pos := by norm_num
  eps_rep := by norm_num

/-- Integers and a value `none` that behaves like NaN: results with it are NaN and comparisons with it are false. -/
abbrev NanInt := Option Int

instance : FloatOps NanInt where
  add a b := do return (← a) + (← b)
  sub a b := do return (← a) - (← b)
  mul a b := do return (← a) * (← b)
  ofNat n := some n
  minusOne := some (-1)
  epsilon := some 1
  le | some a, some b => decide (a ≤ b) | _, _ => false
  lt | some a, some b => decide (a < b) | _, _ => false
  eq | some a, some b => decide (a = b) | _, _ => false

end SP
