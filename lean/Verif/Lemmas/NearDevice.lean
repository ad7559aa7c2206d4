import Verif.Lemmas.NearOptimal
import Verif.Lemmas.DoubleCarrier
/-!
# Penalties computed by a device with `float`
-/
namespace SP
open FloatOps

namespace Format
variable {fmt : Format}

/-- Rounding does not increase numbers much. -/
theorem nearest_upper (hl : fmt.least ≤ -fmt.digits) {v : ℚ} (hv : 0 ≤ v) : fmt.nearest v ≤ v + fmt.unit * max v 1 := by
  rcases le_or_gt 1 v with h1 | h1
  · have := (abs_le.1 (nearest_error (fmt := fmt) h1)).2
    rw [max_eq_left h1]
    linarith
  · rw [max_eq_right h1.le]
    have hp : (0 : ℚ) < 2 ^ fmt.digits := by positivity
    have hfl : 0 ≤ ⌊v * 2 ^ fmt.digits⌋ := Int.floor_nonneg.2 (by positivity)
    obtain ⟨n, hn⟩ := Int.eq_ofNat_of_zero_le hfl
    have hn' : ((⌊v * 2 ^ fmt.digits⌋ : ℤ) : ℚ) = n := by rw [hn]; rfl
    have h2 : (n : ℚ) ≤ v * 2 ^ fmt.digits := hn' ▸ Int.floor_le _
    have h3 : v * 2 ^ fmt.digits < n + 1 := hn' ▸ Int.lt_floor_add_one _
    have hrep : fmt.Representable (n * 2 ^ (-(fmt.digits : ℤ))) := by
      refine ⟨n, _, ?_, hl, rfl⟩
      have : (n : ℚ) < 2 ^ fmt.digits := h2.trans_lt (by nlinarith)
      exact_mod_cast this
    have hz : (n : ℚ) * 2 ^ (-(fmt.digits : ℤ)) = n * fmt.unit := by rw [zpow_neg, zpow_natCast, unit, one_div]
    have hu : (2 : ℚ) ^ fmt.digits * fmt.unit = 1 := by unfold unit; field_simp
    have h4 : n * fmt.unit ≤ v := by
      have := mul_le_mul_of_nonneg_right h2 (unit_nonneg (fmt := fmt))
      rwa [mul_assoc, hu, mul_one] at this
    have h5 : v ≤ n * fmt.unit + fmt.unit := by
      have := mul_le_mul_of_nonneg_right h3.le (unit_nonneg (fmt := fmt))
      rw [mul_assoc, hu, mul_one] at this
      linarith
    have := (nearest_nearest (fmt := fmt) hv).nearest _ hrep
    rw [hz, abs_of_nonneg (by linarith : 0 ≤ v - n * fmt.unit)] at this
    have := (abs_le.1 this).1
    linarith

end Format

/-- Conversion of numbers of the processor for the device. -/
def toSingle (a : Format.binary64.Num) : Single := Ieee.convert (Ieee.of (.refl .binary64) a)

theorem toSingle_nat {a : Format.binary64.Num} {n : ℕ} (h : a.1 = n) : toSingle a = ofNat n := by
  unfold toSingle Ieee.of Ieee.convert
  simp only [Ieee.magnitudeOf_val]
  rw [h, decide_eq_false (not_lt.2 (Nat.cast_nonneg n)), Nat.abs_cast]
  rfl

/-- Numbers of the device. -/
theorem carrier_single126 : Carrier (Ieee.of (.refl .binary32)) (Ieee.Small 126) 126 := Ieee.carrier (.refl .binary32 (by decide))

/-- Comparison with a number that has been rounded. -/
theorem Ieee.le_rounded {fmt fmt' : Format} (wi : fmt.Within fmt') {p : fmt.Num} {v : ℚ} (hv : 0 ≤ v)
    (h : le (Ieee.of wi p) (Ieee.rounded false v) = true) : p.1 ≤ fmt'.nearest v ∨ fmt'.overflow ≤ fmt'.nearest v := by
  unfold Ieee.rounded at h
  split at h
  · refine .inl ?_
    have h' := of_decide_eq_true (h : decide (Ieee.signed _ _ ≤ Ieee.signed _ _) = true)
    rw [Ieee.signed_abs wi p] at h'
    have h'' : p.1 ≤ fmt'.nearest |v| := h'
    rwa [abs_of_nonneg hv] at h''
  · rename_i hov
    rw [abs_of_nonneg hv] at hov
    exact .inr (not_lt.1 hov)

theorem toSingle_nonneg {t : Format.binary64.Num} (ht : 0 ≤ t.1) : toSingle t = Ieee.rounded false t.1 := by
  unfold toSingle Ieee.of Ieee.convert
  simp only [Ieee.magnitudeOf_val]
  rw [decide_eq_false (not_lt.2 ht), abs_of_nonneg ht]

/-- Comparison with a threshold that has been converted. -/
theorem le_toSingle {p : Format.binary32.Num} {t : Format.binary64.Num} (ht : 0 ≤ t.1) (h : le (Ieee.of (.refl .binary32) p) (toSingle t) = true) :
    p.1 ≤ t.1 + Format.binary32.unit * max t.1 1 ∨ 2 ^ 127 ≤ t.1 := by
  have hup := Format.nearest_upper (fmt := .binary32) (by decide) ht
  rw [toSingle_nonneg ht] at h
  refine (Ieee.le_rounded _ ht h).imp (fun h => h.trans hup) fun hov => ?_
  have h1 : Format.binary32.overflow ≤ t.1 + Format.binary32.unit * max t.1 1 := hov.trans hup
  clear hov hup h
  have ho : Format.binary32.overflow = 2 ^ 128 := rfl
  have hu : Format.binary32.unit = 1 / 2 ^ 24 := rfl
  rw [hu, ho] at h1
  by_contra hlt
  rw [not_le] at hlt
  have : max t.1 1 ≤ 2 ^ 127 := max_le hlt.le (by norm_num)
  have : (1 : ℚ) / 2 ^ 24 * max t.1 1 ≤ 1 / 2 ^ 24 * 2 ^ 127 := mul_le_mul_of_nonneg_left this (by norm_num)
  linarith

/-- Edges accepted by the device are almost acceptable. -/
theorem edge_single {s d d' lev : ℕ} {t : Format.binary64.Num} {M : ℚ} (hs : s ≤ 2 ^ 64) (hl : lev ≤ 2 ^ 31) (hd : d ≤ lev) (hd' : d' ≤ lev)
    (ht : 0 ≤ t.1) (hM1 : 1 ≤ M) (hM : s * (lev : ℚ) ^ 2 ≤ M)
    (h : le (sub (sub (sub (mul (toSingle (ofNat s)) (sqr (sub (ofNat d) (ofNat d')))) zero) zero) zero) (toSingle t) = true) :
    (s : ℚ) * ((d : ℚ) - d') ^ 2 ≤ t.1 + 20 * Format.binary32.unit * M := by
  have hu : Format.binary32.unit = 1 / 2 ^ 24 := rfl
  obtain ⟨A, eA, A0, A1, hA⟩ := Format.ofNat_error (fmt := .binary64) (k := 64) (by decide) hs
  obtain ⟨a, rfl⟩ := Int.eq_ofNat_of_zero_le A0
  have ha : a ≤ 2 ^ 64 := by exact_mod_cast A1
  rw [toSingle_nat (n := a) (by rw [eA]; rfl)] at h
  obtain ⟨hP, -, hm⟩ := carrier_single126.penalty 64 31 a d d' (by norm_num) ha (hd.trans hl) (hd'.trans hl)
  have hz : ∀ x : Format.binary32.Num, Ieee.Small 126 x →
      sub (Ieee.of (.refl .binary32) x) zero = (Ieee.of (.refl .binary32) x : Single) := by
    intro x hx
    rw [← carrier_single126.zero, ← carrier_single126.sub _ _ hx carrier_single126.P_zero, carrier_single126.sub_zero _ hx]
  rw [hm, hz _ hP, hz _ hP] at h
  obtain ⟨p, ep, -, -, hp⟩ := Format.penalty_error (fmt := .binary32) (k := 126) (a := 64) (b := 31) (by decide) (by decide) (by norm_num) ha hl hd hd'
  have hlev : (0 : ℚ) ≤ (lev : ℚ) ^ 2 := by positivity
  have hsq0 : (0 : ℚ) ≤ ((d : ℚ) - d') ^ 2 := sq_nonneg _
  have hsq : ((d : ℚ) - d') ^ 2 ≤ (lev : ℚ) ^ 2 := by
    have h1 : (d : ℚ) ≤ lev := by exact_mod_cast hd
    have h2 : (d' : ℚ) ≤ lev := by exact_mod_cast hd'
    have := Nat.cast_nonneg (α := ℚ) d
    have := Nat.cast_nonneg (α := ℚ) d'
    rw [← sq_abs]
    refine pow_le_pow_left₀ (abs_nonneg _) ?_ 2
    rw [abs_le]
    constructor <;> linarith
  have hs0 : (0 : ℚ) ≤ s := Nat.cast_nonneg s
  have hle : (s : ℚ) * ((d : ℚ) - d') ^ 2 ≤ M := (mul_le_mul_of_nonneg_left hsq hs0).trans hM
  rw [hu] at hp ⊢
  rcases le_toSingle ht h with h1 | h1
  · rcases le_or_gt t.1 M with h2 | h2
    · rw [ep, hu] at h1
      have h3 : max t.1 1 ≤ M := max_le h2 hM1
      rw [show Format.binary64.unit = 1 / 2 ^ 53 from rfl, Int.cast_natCast] at hA
      have hA' := abs_le.1 hA
      have hp' := (abs_le.1 hp).1
      -- the weight is rounded as well
      have h4 : (a : ℚ) * (lev : ℚ) ^ 2 ≤ (1 + 1 / 2 ^ 53) * M := by
        have h5 : (a : ℚ) ≤ (1 + 1 / 2 ^ 53) * s := by linarith [hA'.2]
        calc (a : ℚ) * (lev : ℚ) ^ 2 ≤ (1 + 1 / 2 ^ 53) * s * (lev : ℚ) ^ 2 := mul_le_mul_of_nonneg_right h5 hlev
          _ = (1 + 1 / 2 ^ 53) * (s * (lev : ℚ) ^ 2) := by ring
          _ ≤ (1 + 1 / 2 ^ 53) * M := mul_le_mul_of_nonneg_left hM (by norm_num)
      have h5 : (s : ℚ) * ((d : ℚ) - d') ^ 2 ≤ a * ((d : ℚ) - d') ^ 2 + 1 / 2 ^ 53 * M := by
        have h6 : (s : ℚ) ≤ a + 1 / 2 ^ 53 * s := by linarith [hA'.1]
        calc (s : ℚ) * ((d : ℚ) - d') ^ 2 ≤ (a + 1 / 2 ^ 53 * s) * ((d : ℚ) - d') ^ 2 := mul_le_mul_of_nonneg_right h6 hsq0
          _ = a * ((d : ℚ) - d') ^ 2 + 1 / 2 ^ 53 * (s * ((d : ℚ) - d') ^ 2) := by ring
          _ ≤ a * ((d : ℚ) - d') ^ 2 + 1 / 2 ^ 53 * M := by linarith [mul_le_mul_of_nonneg_left hle (by norm_num : (0 : ℚ) ≤ 1 / 2 ^ 53)]
      clear h h2 hA hp hP hm hz
      linarith
    · linarith [mul_nonneg (by norm_num : (0 : ℚ) ≤ 20 * (1 / 2 ^ 24)) (by linarith : (0 : ℚ) ≤ M)]
  · have h6 : (s : ℚ) * ((d : ℚ) - d') ^ 2 ≤ 2 ^ 126 := by
      have h7 : (s : ℚ) ≤ 2 ^ 64 := by exact_mod_cast hs
      have h8 : (lev : ℚ) ≤ 2 ^ 31 := by exact_mod_cast hl
      calc (s : ℚ) * ((d : ℚ) - d') ^ 2 ≤ 2 ^ 64 * (2 ^ 31) ^ 2 :=
            mul_le_mul h7 (hsq.trans (pow_le_pow_left₀ (Nat.cast_nonneg _) h8 2)) hsq0 (by norm_num)
        _ = 2 ^ 126 := by norm_num
    have h9 : (0 : ℚ) ≤ 20 * (1 / 2 ^ 24) * M := mul_nonneg (by norm_num) (by linarith)
    clear h hA hp hP hm hz
    linarith

end SP
