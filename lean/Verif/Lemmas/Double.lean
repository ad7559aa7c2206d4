import Verif.Spec.FloatInstances
import Verif.Model.Double
/-!
# A lawful arithmetic for each format

`Format.rounding` is rounding to finite numbers: too large numbers become the largest one instead of an infinity, and there is one zero.
This arithmetic is lawful.
-/
namespace SP
open FloatOps

namespace Format
variable (fmt : Format)

/-- The largest finite number. -/
def largest : ℚ := (2 ^ fmt.digits - 1) * 2 ^ (fmt.top - fmt.digits)

theorem two_pow_digits : (2 : ℚ) * 2 ^ (fmt.digits - 1) = 2 ^ fmt.digits := by
  have := fmt.digits_pos
  rw [← pow_succ']
  congr 1
  omega

theorem one_le_pow (k : ℕ) : (1 : ℚ) ≤ 2 ^ k := one_le_pow₀ (by norm_num)

theorem largest_pos : 0 < fmt.largest := by
  have h := fmt.two_pow_digits
  have h1 := one_le_pow (fmt.digits - 1)
  exact mul_pos (by linarith) (by positivity)

theorem pow_le_largest {k : ℕ} (h : k < fmt.top) : (2 : ℚ) ^ k ≤ fmt.largest := by
  have h1 := fmt.digits_lt
  have h0 := fmt.digits_pos
  calc (2 : ℚ) ^ k ≤ 2 ^ ((fmt.digits - 1) + (fmt.top - fmt.digits)) := pow_le_pow_right₀ (by norm_num) (by omega)
    _ ≤ fmt.largest := by
      rw [pow_add]
      refine mul_le_mul_of_nonneg_right ?_ (by positivity)
      have h := fmt.two_pow_digits
      have h1 := one_le_pow (fmt.digits - 1)
      linarith

theorem largest_lt : fmt.largest < fmt.overflow := by
  have h1 := fmt.digits_lt
  unfold largest overflow
  rw [show (2 : ℚ) ^ fmt.top = 2 ^ fmt.digits * 2 ^ (fmt.top - fmt.digits) by rw [← pow_add]; congr 1; omega]
  exact mul_lt_mul_of_pos_right (by linarith) (by positivity)

theorem log_lt {v : ℚ} (h0 : 0 < v) {k : ℕ} (h : v < 2 ^ k) : Int.log 2 v < k := by
  by_contra hk
  have h1 := (pow_log_le h0).trans_lt h
  have h3 : (2 : ℚ) ^ (k : ℤ) ≤ 2 ^ Int.log 2 v := zpow_le_zpow_right₀ (by norm_num) (by omega)
  rw [zpow_natCast] at h3
  linarith

theorem nearest_largest : fmt.nearest fmt.largest = fmt.largest := by
  have h1 := fmt.digits_lt
  have h2 := fmt.least_le
  refine nearest_of_multiple (n := 2 ^ fmt.digits - 1) (e := (fmt.top - fmt.digits : ℕ)) (by unfold largest; push_cast; rw [zpow_natCast]) ?_
  have := log_lt fmt.largest_pos fmt.largest_lt
  unfold lastDigit
  omega

/-- Each finite number is at most the largest one. -/
theorem le_largest (m : fmt.Magnitude) : m.1 ≤ fmt.largest := by
  obtain ⟨m, h0, hlt, hm⟩ := m
  show m ≤ fmt.largest
  by_contra hc
  rw [not_le] at hc
  have hpos := fmt.largest_pos.trans hc
  have h1 := fmt.digits_lt
  have h2 := fmt.least_le
  have h3 := fmt.digits_pos
  have hlog : Int.log 2 m = fmt.top - 1 := by
    have hu := log_lt hpos hlt
    have hl : (fmt.top : ℤ) - 1 ≤ Int.log 2 m := by
      by_contra hk
      have h4 := lt_pow_log m
      have h5 : (2 : ℚ) ^ (Int.log 2 m + 1) ≤ 2 ^ ((fmt.top - 1 : ℕ) : ℤ) := zpow_le_zpow_right₀ (by norm_num) (by omega)
      rw [zpow_natCast] at h5
      have h6 := fmt.pow_le_largest (k := fmt.top - 1) (by omega)
      linarith
    omega
  have hd : lastDigit fmt.digits fmt.least m = ((fmt.top - fmt.digits : ℕ) : ℤ) := by
    unfold lastDigit
    omega
  unfold nearest SP.nearest at hm
  rw [hd, zpow_natCast] at hm
  set n := roundEven (m / 2 ^ (fmt.top - fmt.digits)) with hn
  have hpw : (0 : ℚ) < 2 ^ (fmt.top - fmt.digits) := by positivity
  have hn1 : (n : ℚ) < 2 ^ fmt.digits := by
    have : (n : ℚ) * 2 ^ (fmt.top - fmt.digits) < 2 ^ fmt.digits * 2 ^ (fmt.top - fmt.digits) := by
      rw [hm, ← pow_add]
      have : fmt.digits + (fmt.top - fmt.digits) = fmt.top := by omega
      rw [this]
      exact hlt
    exact lt_of_mul_lt_mul_right this hpw.le
  have hn2 : n ≤ 2 ^ fmt.digits - 1 := by
    have : n < 2 ^ fmt.digits := by exact_mod_cast hn1
    omega
  have hn3 : (n : ℚ) ≤ 2 ^ fmt.digits - 1 := by exact_mod_cast hn2
  have : (n : ℚ) * 2 ^ (fmt.top - fmt.digits) ≤ fmt.largest := mul_le_mul_of_nonneg_right hn3 hpw.le
  rw [hm] at this
  linarith

/-- Rounding of numbers of any sign if it does not overflow. -/
def near : ℚ → ℚ := toNearest fmt.digits fmt.least

/-- Rounding to a finite number. -/
def toFinite (x : ℚ) : ℚ := max (-fmt.largest) (min fmt.largest (fmt.near x))

theorem near_largest : fmt.near fmt.largest = fmt.largest := by
  unfold near
  rw [toNearest_nonneg fmt.largest_pos.le]
  exact fmt.nearest_largest

theorem abs_near (x : ℚ) : |fmt.near x| = fmt.nearest |x| := abs_toNearest _

variable {fmt} in
theorem toFinite_eq {x : ℚ} (h : |fmt.near x| ≤ fmt.largest) : fmt.toFinite x = fmt.near x := by
  rw [abs_le] at h
  unfold toFinite
  rw [min_eq_right h.2, max_eq_right h.1]

theorem toFinite_le (x : ℚ) : |fmt.toFinite x| ≤ fmt.largest := by
  rw [abs_le]
  have := fmt.largest_pos
  exact ⟨le_max_left _ _, max_le (by linarith) (min_le_left _ _)⟩

theorem near_toFinite (x : ℚ) : fmt.near (fmt.toFinite x) = fmt.toFinite x := by
  unfold toFinite
  rcases max_choice (-fmt.largest) (min fmt.largest (fmt.near x)) with h | h
  · rw [h]
    exact (toNearest_neg _).trans (congrArg _ fmt.near_largest)
  · rw [h]
    rcases min_choice fmt.largest (fmt.near x) with h | h
    · rw [h, near_largest]
    · rw [h]
      exact toNearest_idem fmt.digits_pos x

/-- Rounding to a finite number. -/
def rounding : Rounding where
  rnd := fmt.toFinite
  mono := fun x y h => max_le_max le_rfl (min_le_min le_rfl (toNearest_mono fmt.digits_pos h))
  idem := fun x => by
    rw [toFinite_eq (by rw [near_toFinite]; exact fmt.toFinite_le x), near_toFinite]
  odd := fun x => by
    unfold toFinite
    rw [show fmt.near (-x) = - fmt.near x from toNearest_neg x]
    have := fmt.largest_pos
    rcases le_total (fmt.near x) fmt.largest with h1 | h1 <;>
      rcases le_total (-fmt.largest) (fmt.near x) with h2 | h2
    · rw [min_eq_right h1, max_eq_right h2, min_eq_right (by linarith), max_eq_right (by linarith)]
    · rw [min_eq_right h1, max_eq_left h2, min_eq_left (by linarith), max_eq_right (by linarith), neg_neg]
    · rw [min_eq_left h1, max_eq_right (show -fmt.largest ≤ fmt.largest by linarith),
        min_eq_right (show -fmt.near x ≤ fmt.largest by linarith), max_eq_left (by linarith)]
    · linarith
  one := by
    have h : fmt.near 1 = 1 := by
      unfold near
      rw [toNearest_nonneg (by norm_num)]
      have := nearest_pow (p := fmt.digits) (emin := fmt.least) (k := 0) fmt.digits_pos
        (by have := fmt.least_le; have := fmt.digits_pos; omega)
      rwa [zpow_zero] at this
    rw [toFinite_eq (by
      rw [h, abs_one]
      exact_mod_cast fmt.pow_le_largest (k := 0) (by have := fmt.digits_lt; omega)), h]
  eps := 2 ^ (1 - fmt.digits : ℤ)
  eps_pos := two_zpow_pos _
  eps_rep := by
    have h : fmt.near (2 ^ (1 - fmt.digits : ℤ)) = 2 ^ (1 - fmt.digits : ℤ) := by
      unfold near
      rw [toNearest_nonneg (two_zpow_pos _).le]
      exact nearest_pow fmt.digits_pos fmt.least_le
    rw [toFinite_eq (by
      rw [h, abs_of_pos (two_zpow_pos _)]
      refine le_trans ?_ (fmt.pow_le_largest (k := 0) (by have := fmt.digits_lt; omega))
      rw [pow_zero, ← zpow_zero 2]
      exact zpow_le_zpow_right₀ (by norm_num) (by have := fmt.digits_pos; omega)), h]

/-- Finite numbers of the format. -/
abbrev Num : Type := fmt.rounding.Num

variable {fmt}

theorem Num.near (x : fmt.Num) : fmt.near x.1 = x.1 := by
  have := fmt.near_toFinite x.1
  rwa [show fmt.toFinite x.1 = x.1 from x.2] at this

theorem Num.le (x : fmt.Num) : |x.1| ≤ fmt.largest := by
  have := fmt.toFinite_le x.1
  rwa [show fmt.toFinite x.1 = x.1 from x.2] at this

/-- Numbers of a format are numbers of another one. -/
structure Within (fmt fmt' : Format) : Prop where
  digits : fmt.digits ≤ fmt'.digits
  top : fmt.top ≤ fmt'.top
  least : fmt'.least ≤ fmt.least

theorem Within.refl (fmt : Format) : fmt.Within fmt := ⟨le_rfl, le_rfl, le_rfl⟩

theorem single_within_double : Format.Within binary32 binary64 := ⟨by decide, by decide, by decide⟩

theorem Within.overflow {fmt' : Format} (h : fmt.Within fmt') : fmt.overflow ≤ fmt'.overflow :=
  pow_le_pow_right₀ (by norm_num) h.top

theorem Within.nearest {fmt' : Format} (h : fmt.Within fmt') {x : ℚ} (hx : fmt.nearest x = x) : fmt'.nearest x = x := by
  refine nearest_of_multiple (n := roundEven (x / 2 ^ lastDigit fmt.digits fmt.least x)) (e := lastDigit fmt.digits fmt.least x) hx.symm ?_
  have h1 := h.digits
  have h2 := h.least
  unfold lastDigit
  omega

/-- Integers are rounded to integers. -/
theorem nearest_int (n : ℕ) : ∃ m : ℕ, fmt.nearest n = m := by
  by_cases h : lastDigit fmt.digits fmt.least (n : ℚ) ≤ 0
  · exact ⟨n, nearest_of_multiple (n := n) (e := 0) (by simp) h⟩
  · have hn : (0 : ℤ) ≤ roundEven ((n : ℚ) / 2 ^ lastDigit fmt.digits fmt.least (n : ℚ)) :=
      le_roundEven (by push_cast; exact div_nonneg (Nat.cast_nonneg n) (two_zpow_pos _).le)
    obtain ⟨k, hk⟩ := Int.eq_ofNat_of_zero_le hn
    obtain ⟨d, hd⟩ := Int.eq_ofNat_of_zero_le (show 0 ≤ lastDigit fmt.digits fmt.least (n : ℚ) by omega)
    refine ⟨k * 2 ^ d, ?_⟩
    unfold nearest SP.nearest
    rw [hk, hd]
    push_cast
    rw [zpow_natCast]

theorem least_nonpos : fmt.least ≤ 0 := by
  have := fmt.least_le
  have := fmt.digits_pos
  omega

theorem nearest_le {v : ℚ} {k : ℕ} (h0 : 0 ≤ v) (h : v ≤ 2 ^ k) : fmt.nearest v ≤ 2 ^ k := by
  have h1 := nearest_mono (p := fmt.digits) (emin := fmt.least) fmt.digits_pos h0 h
  have h2 := nearest_pow (p := fmt.digits) (emin := fmt.least) (k := k) fmt.digits_pos (by have := fmt.least_nonpos; omega)
  rw [zpow_natCast] at h2
  rwa [h2] at h1

theorem one_le_nearest {v : ℚ} (h : 1 ≤ v) : 1 ≤ fmt.nearest v := by
  have h1 := nearest_mono (p := fmt.digits) (emin := fmt.least) fmt.digits_pos (by norm_num) h
  have h2 := nearest_pow (p := fmt.digits) (emin := fmt.least) (k := 0) fmt.digits_pos fmt.least_nonpos
  rw [zpow_zero] at h2
  rwa [h2] at h1

/-- Integers with not too many digits are not changed. -/
theorem nearest_exact {n : ℕ} (h : n ≤ 2 ^ fmt.digits) : fmt.nearest n = n := by
  rcases h.lt_or_eq with h | rfl
  · rcases Nat.eq_zero_or_pos n with rfl | hn
    · simp [nearest]
    · refine nearest_of_multiple (n := n) (e := 0) (by simp) ?_
      have := log_lt (v := n) (k := fmt.digits) (by exact_mod_cast hn) (by exact_mod_cast h)
      have := fmt.least_nonpos
      unfold lastDigit
      omega
  · push_cast
    have := nearest_pow (p := fmt.digits) (emin := fmt.least) (k := fmt.digits) fmt.digits_pos (by have := fmt.least_nonpos; omega)
    rwa [zpow_natCast] at this

end Format
end SP
