import Verif.Spec.Float
import Mathlib.Tactic.Linarith
import Mathlib.Tactic.Ring
import Mathlib.Data.Nat.Log
/-!
# Floating point numbers with few significant bits

Integers with at most `p` significant bits; each operation is the exact one followed by rounding toward zero. The laws of
`LawfulFloat` hold, and everything can be computed. Used as the arithmetic of a device that is less exact than the host.
-/
namespace SP
open FloatOps

/-- The first `p` binary digits of a number, the rest are zeros. -/
def cutNat (p n : Nat) : Nat := n / 2 ^ (n.log2 + 1 - p) * 2 ^ (n.log2 + 1 - p)

theorem cutNat_le (p n : Nat) : cutNat p n ≤ n := Nat.div_mul_le_self _ _

theorem cutNat_zero (p : Nat) : cutNat p 0 = 0 := by simp [cutNat]

theorem le_cutNat {p n : Nat} (hp : 0 < p) (hn : n ≠ 0) : 2 ^ n.log2 ≤ cutNat p n := by
  unfold cutNat
  have hle : n.log2 + 1 - p ≤ n.log2 := by omega
  have hsplit : 2 ^ n.log2 = 2 ^ (n.log2 - (n.log2 + 1 - p)) * 2 ^ (n.log2 + 1 - p) := by
    rw [← Nat.pow_add]; congr 1; omega
  conv_lhs => rw [hsplit]
  refine Nat.mul_le_mul_right _ ?_
  rw [Nat.le_div_iff_mul_le (by positivity), ← hsplit]
  exact Nat.log2_self_le hn

theorem cutNat_mono {p : Nat} (hp : 0 < p) {m n : Nat} (h : m ≤ n) : cutNat p m ≤ cutNat p n := by
  by_cases hm : m = 0
  · rw [hm, cutNat_zero]; exact Nat.zero_le _
  have hn : n ≠ 0 := by omega
  have hl : m.log2 ≤ n.log2 := by
    rw [Nat.le_log2 hn]
    exact Nat.le_trans (Nat.log2_self_le hm) h
  rcases Nat.lt_or_eq_of_le hl with hlt | heq
  · refine Nat.le_trans (cutNat_le p m) (Nat.le_trans ?_ (le_cutNat hp hn))
    have := Nat.lt_log2_self (n := m)
    have h2 : 2 ^ (m.log2 + 1) ≤ 2 ^ n.log2 := Nat.pow_le_pow_right (by omega) hlt
    omega
  · unfold cutNat
    rw [heq]
    exact Nat.mul_le_mul_right _ (Nat.div_le_div_right h)

theorem cutNat_idem {p : Nat} (hp : 0 < p) (n : Nat) : cutNat p (cutNat p n) = cutNat p n := by
  by_cases hn : n = 0
  · rw [hn, cutNat_zero, cutNat_zero]
  have h1 := le_cutNat hp hn
  have h2 := cutNat_le p n
  have hne : cutNat p n ≠ 0 := by
    have : 0 < 2 ^ n.log2 := by positivity
    omega
  have hl : (cutNat p n).log2 = n.log2 := by
    apply Nat.le_antisymm
    · rw [Nat.le_log2 hn]
      exact Nat.le_trans (Nat.log2_self_le hne) h2
    · rw [Nat.le_log2 hne]
      exact h1
  have : cutNat p (cutNat p n) = cutNat p n / 2 ^ (n.log2 + 1 - p) * 2 ^ (n.log2 + 1 - p) := by
    conv_lhs => unfold cutNat
    change cutNat p n / 2 ^ ((cutNat p n).log2 + 1 - p) * 2 ^ ((cutNat p n).log2 + 1 - p) = _
    rw [hl]
  rw [this]
  unfold cutNat
  rw [Nat.mul_div_cancel _ (by positivity)]

/-- Rounding toward zero. -/
def cutInt (p : Nat) (z : Int) : Int := if 0 ≤ z then cutNat p z.toNat else - (cutNat p (-z).toNat : Int)

theorem cutInt_neg (p : Nat) (z : Int) : cutInt p (-z) = - cutInt p z := by
  unfold cutInt
  rcases lt_trichotomy z 0 with h | h | h
  · rw [if_pos (by omega), if_neg (by omega), neg_neg]
  · subst h; simp [cutNat_zero]
  · rw [if_neg (by omega), if_pos (by omega), neg_neg]

theorem cutInt_ofNat (p n : Nat) : cutInt p n = cutNat p n := by simp [cutInt]

theorem cutInt_nonneg {p : Nat} {z : Int} (h : 0 ≤ z) : 0 ≤ cutInt p z := by
  unfold cutInt; rw [if_pos h]; exact Int.natCast_nonneg _

theorem cutInt_mono {p : Nat} (hp : 0 < p) {a b : Int} (h : a ≤ b) : cutInt p a ≤ cutInt p b := by
  by_cases ha : 0 ≤ a
  · unfold cutInt
    rw [if_pos ha, if_pos (by omega)]
    exact_mod_cast cutNat_mono hp (by omega)
  · by_cases hb : 0 ≤ b
    · have h1 := cutInt_nonneg (p := p) hb
      have h2 := cutInt_nonneg (p := p) (z := -a) (by omega)
      rw [cutInt_neg] at h2
      omega
    · unfold cutInt
      rw [if_neg ha, if_neg hb]
      have : cutNat p (-b).toNat ≤ cutNat p (-a).toNat := cutNat_mono hp (by omega)
      omega

theorem cutInt_idem {p : Nat} (hp : 0 < p) (z : Int) : cutInt p (cutInt p z) = cutInt p z := by
  have key : ∀ n : Nat, cutInt p (cutInt p n) = cutInt p n := by
    intro n
    rw [cutInt_ofNat, cutInt_ofNat, cutNat_idem hp]
  rcases le_total 0 z with h | h
  · obtain ⟨n, rfl⟩ := Int.eq_ofNat_of_zero_le h
    exact key n
  · obtain ⟨n, hn⟩ := Int.eq_ofNat_of_zero_le (show 0 ≤ -z by omega)
    have : z = -(n : Int) := by omega
    rw [this, cutInt_neg, cutInt_neg, key]

/-- Numbers with at most `p + 1` significant bits. -/
def FewDigits (p : Nat) : Type := { z : Int // cutInt (p + 1) z = z }

namespace FewDigits
variable {p : Nat}

def of (p : Nat) (z : Int) : FewDigits p := ⟨cutInt (p + 1) z, cutInt_idem (by omega) z⟩

instance : DecidableEq (FewDigits p) := fun a b => decidable_of_iff (a.1 = b.1) Subtype.ext_iff.symm

instance : FloatOps (FewDigits p) where
  add a b := of p (a.1 + b.1)
  sub a b := of p (a.1 - b.1)
  mul a b := of p (a.1 * b.1)
  ofNat n := of p n
  minusOne := of p (-1)
  epsilon := of p 1
  le a b := decide (a.1 ≤ b.1)
  lt a b := decide (a.1 < b.1)
  eq a b := decide (a.1 = b.1)

theorem of_mono {a b : Int} (h : a ≤ b) : (of p a).1 ≤ (of p b).1 := cutInt_mono (by omega) h

theorem of_val (a : FewDigits p) : of p a.1 = a := Subtype.ext a.2

theorem of_zero : (of p 0).1 = 0 := by simp [of, cutInt, cutNat_zero]

theorem one_val : (of p 1).1 = 1 := by
  simp [of, cutInt, cutNat, show Nat.log2 1 = 0 from rfl]

theorem zero_val : (zero : FewDigits p).1 = 0 := of_zero

theorem sqr_val (a : FewDigits p) : sqr a = of p (a.1 * a.1) := rfl

instance : LawfulFloat (FewDigits p) where
  le_total a b := by simpa [le] using le_total a.1 b.1
  le_trans a b c := by simpa [le] using le_trans
  le_antisymm a b h1 h2 := by
    simp only [le, decide_eq_true_eq] at h1 h2
    exact Subtype.ext (le_antisymm h1 h2)
  lt_iff a b := by simp [le, lt]
  eq_iff a b := by simp only [eq, decide_eq_true_eq]; exact Subtype.ext_iff.symm
  add_zero a := by
    show of p (a.1 + (zero : FewDigits p).1) = a
    rw [zero_val, Int.add_zero, of_val]
  add_mono a b c d h1 h2 := by
    simp only [le, decide_eq_true_eq] at h1 h2 ⊢
    exact of_mono (by omega)
  sub_zero a := by
    show of p (a.1 - (zero : FewDigits p).1) = a
    rw [zero_val, Int.sub_zero, of_val]
  sub_self a := by
    show of p (a.1 - a.1) = _
    rw [Int.sub_self]; rfl
  sub_mono a b c h := by
    simp only [le, decide_eq_true_eq] at h ⊢
    exact of_mono (by omega)
  sub_anti a b c h := by
    simp only [le, decide_eq_true_eq] at h ⊢
    exact of_mono (by omega)
  mul_zero a := by
    show of p (a.1 * (zero : FewDigits p).1) = _
    rw [zero_val, Int.mul_zero]; rfl
  mul_mono a b c h1 h2 := by
    simp only [le, decide_eq_true_eq, zero_val] at h1 h2 ⊢
    exact of_mono (Int.mul_le_mul_of_nonneg_left h2 h1)
  sqr_nonneg a := by
    simp only [le, decide_eq_true_eq, zero_val]
    exact cutInt_nonneg (mul_self_nonneg a.1)
  sqr_mono a b h1 h2 := by
    simp only [le, decide_eq_true_eq, zero_val] at h1 h2 ⊢
    exact of_mono (mul_self_le_mul_self h1 h2)
  sqr_sub_comm a b := by
    rw [sqr_val, sqr_val]
    congr 1
    have : (sub a b).1 = - (sub b a).1 := by
      show cutInt (p + 1) (a.1 - b.1) = - cutInt (p + 1) (b.1 - a.1)
      rw [← cutInt_neg, neg_sub]
    rw [this]; ring
  ofNat_mono m n h := by
    simp only [le, decide_eq_true_eq]
    exact of_mono (by exact_mod_cast h)
  minusOne_neg := by
    simp only [lt, decide_eq_true_eq, zero_val]
    show cutInt (p + 1) (-1) < 0
    rw [cutInt_neg]
    have : cutInt (p + 1) 1 = 1 := one_val
    omega
  epsilon_pos := by
    simp only [lt, decide_eq_true_eq, zero_val]
    show 0 < (of p 1).1
    rw [one_val]; omega

end FewDigits
end SP
