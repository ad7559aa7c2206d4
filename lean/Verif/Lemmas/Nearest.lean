import Verif.Model.Rounding
import Mathlib.Algebra.Order.Archimedean.Basic
import Mathlib.Tactic.Linarith
import Mathlib.Tactic.Positivity
import Mathlib.Tactic.FieldSimp
/-!
# Rounding to the nearest is a rounding function
-/
namespace SP

theorem roundEven_intCast (n : ℤ) : roundEven n = n := by
  unfold roundEven
  rw [Int.floor_intCast, if_pos (by norm_num)]

theorem floor_le_roundEven (q : ℚ) : ⌊q⌋ ≤ roundEven q := by
  unfold roundEven
  split_ifs <;> omega

theorem roundEven_le_floor (q : ℚ) : roundEven q ≤ ⌊q⌋ + 1 := by
  unfold roundEven
  split_ifs <;> omega

theorem roundEven_mono {q r : ℚ} (h : q ≤ r) : roundEven q ≤ roundEven r := by
  have hf : ⌊q⌋ ≤ ⌊r⌋ := Int.floor_le_floor h
  rcases lt_or_eq_of_le hf with hlt | heq
  · have h1 := roundEven_le_floor q
    have h2 := floor_le_roundEven r
    omega
  · unfold roundEven
    rw [heq]
    split_ifs <;> first | omega | linarith

theorem roundEven_le {q : ℚ} {n : ℤ} (h : q ≤ n) : roundEven q ≤ n := by
  have := roundEven_mono h
  rwa [roundEven_intCast] at this

theorem le_roundEven {q : ℚ} {n : ℤ} (h : (n : ℚ) ≤ q) : n ≤ roundEven q := by
  have := roundEven_mono h
  rwa [roundEven_intCast] at this

section
variable {p : ℕ} {emin : ℤ}

theorem lastDigit_ge (v : ℚ) : emin ≤ lastDigit p emin v := le_max_right _ _

theorem two_zpow_pos (e : ℤ) : (0 : ℚ) < 2 ^ e := zpow_pos (by norm_num) e

/-- A multiple of the last digit is not changed. -/
theorem nearest_of_multiple {v : ℚ} {n e : ℤ} (h : v = n * 2 ^ e) (he : lastDigit p emin v ≤ e) : nearest p emin v = v := by
  unfold nearest
  set d := lastDigit p emin v with hd
  obtain ⟨k, hk⟩ := Int.le.dest he
  have hv : v / 2 ^ d = ((n * 2 ^ k : ℤ) : ℚ) := by
    rw [h, ← hk, zpow_add₀ (by norm_num), zpow_natCast]
    have := (two_zpow_pos d).ne'
    push_cast
    field_simp
  rw [hv, roundEven_intCast, ← hv]
  exact div_mul_cancel₀ _ (two_zpow_pos d).ne'

@[simp] theorem nearest_zero : nearest p emin 0 = 0 := by
  unfold nearest
  rw [zero_div, show (0 : ℚ) = ((0 : ℤ) : ℚ) by norm_num, roundEven_intCast]
  simp

theorem nearest_nonneg {v : ℚ} (h : 0 ≤ v) : 0 ≤ nearest p emin v := by
  unfold nearest
  refine mul_nonneg ?_ (two_zpow_pos _).le
  have : (0 : ℤ) ≤ roundEven (v / 2 ^ lastDigit p emin v) :=
    le_roundEven (by push_cast; exact div_nonneg h (two_zpow_pos _).le)
  exact_mod_cast this

/-- Powers of two bound the rounded value as they bound the exact one. -/
theorem nearest_le_pow {v : ℚ} {k : ℤ} (h : v ≤ 2 ^ k) (hk : lastDigit p emin v ≤ k) : nearest p emin v ≤ 2 ^ k := by
  unfold nearest
  set d := lastDigit p emin v
  obtain ⟨j, hj⟩ := Int.le.dest hk
  have h2 : (2 : ℚ) ^ k = 2 ^ d * 2 ^ j := by rw [← hj, zpow_add₀ (by norm_num), zpow_natCast]
  have : roundEven (v / 2 ^ d) ≤ 2 ^ j := by
    apply roundEven_le
    rw [div_le_iff₀ (two_zpow_pos d)]
    push_cast
    rw [mul_comm, ← h2]
    exact h
  have h3 : (roundEven (v / 2 ^ d) : ℚ) ≤ 2 ^ j := by exact_mod_cast this
  rw [h2, mul_comm]
  exact mul_le_mul_of_nonneg_left h3 (two_zpow_pos d).le

theorem pow_le_nearest {v : ℚ} {k : ℤ} (h : 2 ^ k ≤ v) (hk : lastDigit p emin v ≤ k) : 2 ^ k ≤ nearest p emin v := by
  unfold nearest
  set d := lastDigit p emin v
  obtain ⟨j, hj⟩ := Int.le.dest hk
  have h2 : (2 : ℚ) ^ k = 2 ^ d * 2 ^ j := by rw [← hj, zpow_add₀ (by norm_num), zpow_natCast]
  have : 2 ^ j ≤ roundEven (v / 2 ^ d) := by
    apply le_roundEven
    rw [le_div_iff₀ (two_zpow_pos d)]
    push_cast
    rw [mul_comm, ← h2]
    exact h
  have h3 : (2 : ℚ) ^ j ≤ roundEven (v / 2 ^ d) := by exact_mod_cast this
  rw [h2, mul_comm (roundEven _ : ℚ)]
  exact mul_le_mul_of_nonneg_left h3 (two_zpow_pos d).le

theorem pow_log_le {v : ℚ} (h : 0 < v) : (2 : ℚ) ^ Int.log 2 v ≤ v := by
  have := Int.zpow_log_le_self (b := 2) (by norm_num) h
  exact_mod_cast this

theorem lt_pow_log (v : ℚ) : v < (2 : ℚ) ^ (Int.log 2 v + 1) := by
  have := Int.lt_zpow_succ_log_self (b := 2) (by norm_num) v
  exact_mod_cast this

theorem nearest_mono (hp : 0 < p) {u v : ℚ} (hu : 0 ≤ u) (h : u ≤ v) : nearest p emin u ≤ nearest p emin v := by
  rcases hu.eq_or_lt with rfl | hu
  · rw [nearest_zero]
    exact nearest_nonneg h
  have hv : 0 < v := hu.trans_le h
  have hlog : Int.log 2 u ≤ Int.log 2 v := Int.log_mono_right hu h
  have hle : lastDigit p emin u ≤ lastDigit p emin v := by
    unfold lastDigit
    omega
  rcases hle.lt_or_eq with hlt | heq
  · have hd : lastDigit p emin v = Int.log 2 v + 1 - p ∧ Int.log 2 u < Int.log 2 v := by
      unfold lastDigit at hlt ⊢
      omega
    have h1 : nearest p emin u ≤ 2 ^ Int.log 2 v := by
      apply nearest_le_pow
      · refine (lt_pow_log u).le.trans ?_
        exact zpow_le_zpow_right₀ (by norm_num) (by omega)
      · have : (0 : ℤ) < p := by exact_mod_cast hp
        omega
    have h2 : 2 ^ Int.log 2 v ≤ nearest p emin v := by
      apply pow_le_nearest (pow_log_le hv)
      have : (0 : ℤ) < p := by exact_mod_cast hp
      omega
    exact h1.trans h2
  · unfold nearest
    rw [heq]
    refine mul_le_mul_of_nonneg_right ?_ (two_zpow_pos _).le
    have : roundEven (u / 2 ^ lastDigit p emin v) ≤ roundEven (v / 2 ^ lastDigit p emin v) :=
      roundEven_mono (div_le_div_of_nonneg_right h (two_zpow_pos _).le)
    exact_mod_cast this

theorem nearest_idem (hp : 0 < p) {v : ℚ} (h : 0 ≤ v) : nearest p emin (nearest p emin v) = nearest p emin v := by
  rcases h.eq_or_lt with rfl | hv
  · simp
  set d := lastDigit p emin v with hd
  set n := roundEven (v / 2 ^ d) with hn
  have hw : nearest p emin v = n * 2 ^ d := rfl
  have hpz : (0 : ℤ) < p := by exact_mod_cast hp
  have hn0 : 0 ≤ n := le_roundEven (by push_cast; exact div_nonneg h (two_zpow_pos _).le)
  have hnp : n ≤ 2 ^ p := by
    apply roundEven_le
    rw [div_le_iff₀ (two_zpow_pos d)]
    push_cast
    rw [← zpow_natCast, ← zpow_add₀ (by norm_num)]
    refine (lt_pow_log v).le.trans (zpow_le_zpow_right₀ (by norm_num) ?_)
    have : Int.log 2 v + 1 - p ≤ d := le_max_left _ _
    omega
  rcases hn0.eq_or_lt with h0 | hpos
  · rw [hw, ← h0]
    simp
  have hnq : (0 : ℚ) < n := by exact_mod_cast hpos
  have hwpos : 0 < nearest p emin v := by
    rw [hw]
    exact mul_pos hnq (two_zpow_pos _)
  rcases hnp.lt_or_eq with hlt | heq
  · refine nearest_of_multiple hw ?_
    have hltq : (n : ℚ) < 2 ^ p := by exact_mod_cast hlt
    have : nearest p emin v < 2 ^ (p + d) := by
      rw [hw, zpow_add₀ (by norm_num), zpow_natCast]
      exact mul_lt_mul_of_pos_right hltq (two_zpow_pos _)
    have hlog : Int.log 2 (nearest p emin v) < p + d := by
      rw [← Int.lt_zpow_iff_log_lt (b := 2) (by norm_num) hwpos]
      exact_mod_cast this
    have hmin : emin ≤ d := lastDigit_ge v
    unfold lastDigit
    omega
  · have hv2 : nearest p emin v = 2 ^ (p + d) := by
      rw [hw, heq, zpow_add₀ (by norm_num), zpow_natCast]
      push_cast
      rfl
    have hlog : Int.log 2 (nearest p emin v) = p + d := by
      rw [hv2]
      have := Int.log_zpow (R := ℚ) (b := 2) (by norm_num) (p + d)
      exact_mod_cast this
    have hmin : emin ≤ d := lastDigit_ge v
    refine nearest_of_multiple (n := 1) (e := p + d) (by rw [hv2]; simp) ?_
    rw [lastDigit, hlog]
    omega

/-- Rounding to the nearest with `p` significant digits. -/
def toNearest (p : ℕ) (emin : ℤ) (x : ℚ) : ℚ := if 0 ≤ x then nearest p emin x else - nearest p emin (-x)

theorem toNearest_nonneg {x : ℚ} (h : 0 ≤ x) : toNearest p emin x = nearest p emin x := if_pos h

theorem toNearest_neg (x : ℚ) : toNearest p emin (-x) = - toNearest p emin x := by
  unfold toNearest
  rcases lt_trichotomy x 0 with h | rfl | h
  · rw [if_pos (by linarith), if_neg (by linarith), neg_neg]
  · simp
  · rw [if_neg (by linarith), if_pos h.le, neg_neg]

theorem toNearest_nonpos {x : ℚ} (h : x ≤ 0) : toNearest p emin x = - nearest p emin (-x) := by
  rw [← toNearest_nonneg (by linarith), toNearest_neg, neg_neg]

theorem abs_toNearest (x : ℚ) : |toNearest p emin x| = nearest p emin |x| := by
  rcases le_total 0 x with h | h
  · rw [toNearest_nonneg h, abs_of_nonneg h, abs_of_nonneg (nearest_nonneg h)]
  · rw [toNearest_nonpos h, abs_of_nonpos h, abs_neg, abs_of_nonneg (nearest_nonneg (by linarith))]

theorem toNearest_mono (hp : 0 < p) : Monotone (toNearest p emin) := by
  intro x y h
  rcases le_total 0 x with hx | hx
  · rw [toNearest_nonneg hx, toNearest_nonneg (hx.trans h)]
    exact nearest_mono hp hx h
  · rcases le_total 0 y with hy | hy
    · rw [toNearest_nonpos hx, toNearest_nonneg hy]
      have h1 := nearest_nonneg (p := p) (emin := emin) (v := -x) (by linarith)
      have h2 := nearest_nonneg (p := p) (emin := emin) hy
      linarith
    · rw [toNearest_nonpos hx, toNearest_nonpos hy]
      have := nearest_mono (emin := emin) hp (show (0 : ℚ) ≤ -y by linarith) (show -y ≤ -x by linarith)
      linarith

theorem toNearest_idem (hp : 0 < p) (x : ℚ) : toNearest p emin (toNearest p emin x) = toNearest p emin x := by
  rcases le_total 0 x with h | h
  · rw [toNearest_nonneg h, toNearest_nonneg (nearest_nonneg h), nearest_idem hp h]
  · rw [toNearest_nonpos h, toNearest_neg, toNearest_nonneg (nearest_nonneg (by linarith)), nearest_idem hp (by linarith)]

theorem nearest_pow {k : ℤ} (hp : 0 < p) (h : emin ≤ k) : nearest p emin (2 ^ k) = 2 ^ k := by
  refine nearest_of_multiple (n := 1) (e := k) (by simp) ?_
  have hlog : Int.log 2 ((2 : ℚ) ^ k) = k := by
    have := Int.log_zpow (R := ℚ) (b := 2) (by norm_num) k
    exact_mod_cast this
  have hpz : (0 : ℤ) < p := by exact_mod_cast hp
  rw [lastDigit, hlog]
  omega

end

end SP
