import Verif.Spec.Float
import Mathlib.Algebra.Order.Ring.Abs
import Mathlib.Algebra.Order.Ring.Int
import Mathlib.Tactic.Linarith
import Mathlib.Tactic.Positivity
import Mathlib.Tactic.Ring
/-!
# Arithmetics that are exact for integers that are not too large

What is asked of a device to find the best map: nothing but comparisons, differences and products of integers up to `2^k` matters. `float`
is such with 24 digits whatever the direction of rounding, with subnormal numbers or without them; so are integers of 32 bits.
-/
namespace SP
open FloatOps

/-- Integers whose absolute values are at most `2^k` are numbers of the arithmetic, and operations on them are exact as long as results are such
integers. Products with negative zeros are not asked for. -/
structure ExactOn (k : ℕ) {D : Type} [FloatOps D] (of : ℤ → D) : Prop where
  ofNat : ∀ n : ℕ, n ≤ 2 ^ k → ofNat n = of n
  minusOne : minusOne = of (-1)
  epsilon : ∀ n : ℕ, n ≤ 2 ^ k → lt (of n) epsilon = decide (n = 0)
  le : ∀ a b : ℤ, |a| ≤ 2 ^ k → |b| ≤ 2 ^ k → le (of a) (of b) = decide (a ≤ b)
  lt : ∀ a b : ℤ, |a| ≤ 2 ^ k → |b| ≤ 2 ^ k → lt (of a) (of b) = decide (a < b)
  eq : ∀ a b : ℤ, |a| ≤ 2 ^ k → |b| ≤ 2 ^ k → eq (of a) (of b) = decide (a = b)
  add : ∀ a b : ℤ, |a| ≤ 2 ^ k → |b| ≤ 2 ^ k → |a + b| ≤ 2 ^ k → add (of a) (of b) = of (a + b)
  sub : ∀ a b : ℤ, |a| ≤ 2 ^ k → |b| ≤ 2 ^ k → |a - b| ≤ 2 ^ k → sub (of a) (of b) = of (a - b)
  mul : ∀ a b : ℤ, |a| ≤ 2 ^ k → |b| ≤ 2 ^ k → |a * b| ≤ 2 ^ k → 0 ≤ a ∧ 0 ≤ b ∨ a = b → mul (of a) (of b) = of (a * b)

/-- Integers whose absolute values are at most `2^k`. -/
def Bounded (k : ℕ) : Type := { n : ℤ // |n| ≤ 2 ^ k }

namespace Bounded
variable {k : ℕ}

/-- The nearest of these integers. -/
def clamp (k : ℕ) (n : ℤ) : Bounded k :=
  ⟨max (-2 ^ k) (min n (2 ^ k)), by
    have : (0 : ℤ) < 2 ^ k := by positivity
    rw [abs_le]
    exact ⟨le_max_left _ _, max_le (by omega) (min_le_right _ _)⟩⟩

theorem clamp_val {n : ℤ} (h : |n| ≤ 2 ^ k) : (clamp k n).1 = n := by
  rw [abs_le] at h
  show max _ (min _ _) = _
  rw [min_eq_left h.2, max_eq_right h.1]

theorem clamp_mono {m n : ℤ} (h : m ≤ n) : (clamp k m).1 ≤ (clamp k n).1 := max_le_max le_rfl (min_le_min h le_rfl)

theorem clamp_eq (a : Bounded k) : clamp k a.1 = a := Subtype.ext (clamp_val a.2)

/-- Operations are exact ones unless the result is too large. -/
instance : FloatOps (Bounded k) where
  add a b := clamp k (a.1 + b.1)
  sub a b := clamp k (a.1 - b.1)
  mul a b := clamp k (a.1 * b.1)
  ofNat n := clamp k n
  minusOne := clamp k (-1)
  epsilon := clamp k 1
  le a b := decide (a.1 ≤ b.1)
  lt a b := decide (a.1 < b.1)
  eq a b := decide (a.1 = b.1)

theorem small {n : ℤ} (h : |n| ≤ 1) : |n| ≤ 2 ^ k := h.trans (one_le_pow₀ (by norm_num))

theorem zero_val : (zero : Bounded k).1 = 0 := clamp_val (small (n := ((0 : ℕ) : ℤ)) (by norm_num))

theorem clamp_zero : clamp k 0 = zero := rfl

theorem clamp_nonneg {n : ℤ} (h : 0 ≤ n) : 0 ≤ (clamp k n).1 := by
  have := clamp_mono (k := k) h
  rwa [clamp_val (small (by norm_num))] at this

theorem clamp_neg (n : ℤ) : (clamp k (-n)).1 = -(clamp k n).1 := by
  have : (0 : ℤ) < 2 ^ k := by positivity
  show max _ (min _ _) = -max _ (min _ _)
  omega

instance : LawfulFloat (Bounded k) where
  le_total a b := by simp only [le, decide_eq_true_eq]; exact Int.le_total _ _
  le_trans a b c := by simp only [le, decide_eq_true_eq]; exact Int.le_trans
  le_antisymm a b := by simp only [le, decide_eq_true_eq]; exact fun h h' => Subtype.ext (Int.le_antisymm h h')
  lt_iff a b := by simp only [le, lt, decide_eq_true_eq, decide_eq_false_iff_not, not_le]
  eq_iff a b := by simp only [eq, decide_eq_true_eq]; exact ⟨Subtype.ext, congrArg _⟩
  add_zero a := by
    show clamp k (a.1 + (zero : Bounded k).1) = a
    rw [zero_val, add_zero, clamp_eq]
  add_mono a b c d := by
    simp only [le, decide_eq_true_eq]
    exact fun h h' => clamp_mono (add_le_add h h')
  sub_zero a := by
    show clamp k (a.1 - (zero : Bounded k).1) = a
    rw [zero_val, sub_zero, clamp_eq]
  sub_self a := by
    show clamp k (a.1 - a.1) = zero
    rw [sub_self, clamp_zero]
  sub_mono a b c := by
    simp only [le, decide_eq_true_eq]
    exact fun h => clamp_mono (sub_le_sub_right h _)
  sub_anti a b c := by
    simp only [le, decide_eq_true_eq]
    exact fun h => clamp_mono (sub_le_sub_left h _)
  mul_zero a := by
    show clamp k (a.1 * (zero : Bounded k).1) = zero
    rw [zero_val, mul_zero, clamp_zero]
  mul_mono a b c := by
    simp only [le, decide_eq_true_eq, zero_val]
    exact fun h h' => clamp_mono (mul_le_mul_of_nonneg_left h' h)
  sqr_nonneg a := by
    simp only [le, decide_eq_true_eq, zero_val]
    exact clamp_nonneg (mul_self_nonneg _)
  sqr_mono a b := by
    simp only [le, decide_eq_true_eq, zero_val]
    exact fun h h' => clamp_mono (mul_self_le_mul_self h h')
  sqr_sub_comm a b := by
    refine Subtype.ext ?_
    show (clamp k ((clamp k (a.1 - b.1)).1 * (clamp k (a.1 - b.1)).1)).1 = (clamp k ((clamp k (b.1 - a.1)).1 * (clamp k (b.1 - a.1)).1)).1
    rw [show b.1 - a.1 = -(a.1 - b.1) by ring, clamp_neg, neg_mul_neg]
  ofNat_mono m n h := by
    simp only [le, decide_eq_true_eq]
    exact clamp_mono (by exact_mod_cast h)
  minusOne_neg := by
    simp only [lt, decide_eq_true_eq, zero_val]
    show (clamp k (-1)).1 < 0
    rw [clamp_val (small (by norm_num))]
    norm_num
  epsilon_pos := by
    simp only [lt, decide_eq_true_eq, zero_val]
    show 0 < (clamp k 1).1
    rw [clamp_val (small (by norm_num))]
    norm_num

end Bounded
end SP
