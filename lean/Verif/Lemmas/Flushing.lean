import Verif.Model.Flushing
import Verif.Lemmas.Exact
import Verif.Lemmas.Contracted
import Verif.Lemmas.NearDevice
/-!
# Subnormal numbers do not matter

All numbers of devices are integers or rounded integers, and such numbers are not subnormal.
-/
namespace SP
open FloatOps

namespace Ieee
variable {fmt : Format}

theorem Flushed.eq {x y : Ieee fmt} (h : x.Flushed y) (hx : ¬ x.Subnormal) : y = x := h.resolve_right fun h => hx h.1

/-- Integers are not subnormal. -/
theorem ofInt_ordinary {k : ℕ} (hk : k ≤ fmt.digits) {n : ℤ} (h : |n| ≤ 2 ^ k) : ¬ (ofInt n : Ieee fmt).Subnormal := by
  obtain ⟨e1, e2⟩ := ofInt_eq hk h
  rw [e1]
  rintro ⟨h1, h2⟩
  rw [magnitudeOf_val, e2, ← Int.cast_abs] at h1 h2
  have h1 : 0 < |n| := by exact_mod_cast h1
  have h3 : (1 : ℚ) ≤ ((|n| : ℤ) : ℚ) := by exact_mod_cast h1
  have h4 : (2 : ℚ) ^ (fmt.least + fmt.digits - 1) ≤ 2 ^ (0 : ℤ) := zpow_le_zpow_right₀ (by norm_num) (by have := fmt.least_le; omega)
  rw [zpow_zero] at h4
  linarith

end Ieee

namespace Flush
variable {fmt : Format} (flush : Flush fmt) {x y : Ieee fmt} (hx : ¬ x.Subnormal) (hy : ¬ y.Subnormal)
include hx hy

theorem add_eq (h : ¬ (FloatOps.add x y).Subnormal) : flush.add x y = FloatOps.add x y := by
  obtain ⟨x', y', h1, h2, h3⟩ := flush.add_flushed x y
  rw [h1.eq hx, h2.eq hy] at h3
  exact h3.eq h

theorem sub_eq (h : ¬ (FloatOps.sub x y).Subnormal) : flush.sub x y = FloatOps.sub x y := by
  obtain ⟨x', y', h1, h2, h3⟩ := flush.sub_flushed x y
  rw [h1.eq hx, h2.eq hy] at h3
  exact h3.eq h

theorem mul_eq (h : ¬ (FloatOps.mul x y).Subnormal) : flush.mul x y = FloatOps.mul x y := by
  obtain ⟨x', y', h1, h2, h3⟩ := flush.mul_flushed x y
  rw [h1.eq hx, h2.eq hy] at h3
  exact h3.eq h

theorem le_eq : flush.le x y = FloatOps.le x y := by
  obtain ⟨x', y', h1, h2, h3⟩ := flush.le_flushed x y
  rw [h3, h1.eq hx, h2.eq hy]
  rfl

theorem lt_eq : flush.lt x y = FloatOps.lt x y := by
  obtain ⟨x', y', h1, h2, h3⟩ := flush.lt_flushed x y
  rw [h3, h1.eq hx, h2.eq hy]
  rfl

theorem eq_eq : flush.eq x y = FloatOps.eq x y := by
  obtain ⟨x', y', h1, h2, h3⟩ := flush.eq_flushed x y
  rw [h3, h1.eq hx, h2.eq hy]
  rfl

end Flush

/-- Such devices are exact for integers as others are. -/
theorem Flushing.exactOn {fmt : Format} (flush : Flush fmt) (hl : fmt.least ≤ 2 - 2 * fmt.digits) {k : ℕ} (hk : k ≤ fmt.digits) :
    ExactOn k (fun n => (⟨Ieee.ofInt n⟩ : Flushing flush)) where
  ofNat n h := congrArg Flushing.mk ((Ieee.exactOn fmt hk).ofNat n h)
  minusOne := congrArg Flushing.mk (Ieee.exactOn fmt hk).minusOne
  epsilon n h := by
    have hn : |(n : ℤ)| ≤ 2 ^ k := by rw [abs_of_nonneg (by positivity)]; exact_mod_cast h
    rw [← (Ieee.exactOn fmt hk).epsilon n h]
    refine flush.lt_eq (Ieee.ofInt_ordinary hk hn) ?_
    obtain ⟨e, he, he'⟩ := Ieee.epsilon_eq (fmt' := fmt)
    show ¬ (FloatOps.epsilon : Ieee fmt).Subnormal
    rw [he]
    rintro ⟨-, h2⟩
    rw [he', zpow_lt_zpow_iff_right₀ (by norm_num)] at h2
    omega
  le a b ha hb := (flush.le_eq (Ieee.ofInt_ordinary hk ha) (Ieee.ofInt_ordinary hk hb)).trans ((Ieee.exactOn fmt hk).le a b ha hb)
  lt a b ha hb := (flush.lt_eq (Ieee.ofInt_ordinary hk ha) (Ieee.ofInt_ordinary hk hb)).trans ((Ieee.exactOn fmt hk).lt a b ha hb)
  eq a b ha hb := (flush.eq_eq (Ieee.ofInt_ordinary hk ha) (Ieee.ofInt_ordinary hk hb)).trans ((Ieee.exactOn fmt hk).eq a b ha hb)
  add a b ha hb h := by
    have e := (Ieee.exactOn fmt hk).add a b ha hb h
    refine congrArg Flushing.mk ((flush.add_eq (Ieee.ofInt_ordinary hk ha) (Ieee.ofInt_ordinary hk hb) ?_).trans e)
    rw [e]
    exact Ieee.ofInt_ordinary hk h
  sub a b ha hb h := by
    have e := (Ieee.exactOn fmt hk).sub a b ha hb h
    refine congrArg Flushing.mk ((flush.sub_eq (Ieee.ofInt_ordinary hk ha) (Ieee.ofInt_ordinary hk hb) ?_).trans e)
    rw [e]
    exact Ieee.ofInt_ordinary hk h
  mul a b ha hb h hs := by
    have e := (Ieee.exactOn fmt hk).mul a b ha hb h hs
    refine congrArg Flushing.mk ((flush.mul_eq (Ieee.ofInt_ordinary hk ha) (Ieee.ofInt_ordinary hk hb) ?_).trans e)
    rw [e]
    exact Ieee.ofInt_ordinary hk h

/-! ## Rounded integers -/

/-- The same digits and numbers that are not subnormal only. -/
def Format.coarse (fmt : Format) : Format := ⟨fmt.digits, fmt.top, 1 - fmt.digits, fmt.digits_pos, fmt.digits_lt, le_rfl⟩

namespace Format
variable {fmt : Format}

theorem coarse_within (fmt : Format) : fmt.coarse.Within fmt := ⟨le_rfl, le_rfl, fmt.least_le⟩

theorem lastDigit_coarse (n : ℕ) (hn : 0 < n) : lastDigit fmt.coarse.digits fmt.coarse.least (n : ℚ) = lastDigit fmt.digits fmt.least (n : ℚ) := by
  have h := fmt.least_le
  have h0 : 0 ≤ Int.log 2 (n : ℚ) := by
    have := Int.log_mono_right (b := 2) (R := ℚ) (r₁ := 1) one_pos (show (1 : ℚ) ≤ n by exact_mod_cast hn)
    rwa [Int.log_one_right] at this
  show max _ _ = max _ _
  simp only [coarse]
  omega

/-- Integers are rounded in the same way. -/
theorem coarse_agree (fmt : Format) {k : ℕ} (hk : k < fmt.top) : fmt.coarse.Agree fmt k where
  toWithin := fmt.coarse_within
  lt := hk
  same n _ := by
    rcases Nat.eq_zero_or_pos n with rfl | hn
    · rw [Nat.cast_zero]
      exact nearest_zero.trans nearest_zero.symm
    · unfold Format.nearest SP.nearest
      rw [lastDigit_coarse n hn]

/-- Numbers are not less than the least digit. -/
theorem Num.least_le (x : fmt.Num) (h : 0 < |x.1|) : (2 : ℚ) ^ fmt.least ≤ |x.1| := by
  have hn : fmt.nearest |x.1| = |x.1| := by
    have h := fmt.abs_near x.1
    rw [x.near] at h
    exact h.symm
  generalize |x.1| = v at h hn
  unfold Format.nearest SP.nearest at hn
  set d := lastDigit fmt.digits fmt.least v
  have hd : fmt.least ≤ d := lastDigit_ge v
  have h1 : 0 < roundEven (v / 2 ^ d) := by
    by_contra hc
    have h2 : ((roundEven (v / 2 ^ d) : ℤ) : ℚ) ≤ 0 := by exact_mod_cast not_lt.1 hc
    have := mul_nonpos_of_nonpos_of_nonneg h2 (two_zpow_pos d).le
    linarith
  have h2 : (1 : ℚ) ≤ ((roundEven (v / 2 ^ d) : ℤ) : ℚ) := by exact_mod_cast h1
  calc (2 : ℚ) ^ fmt.least ≤ 2 ^ d := zpow_le_zpow_right₀ (by norm_num) hd
    _ ≤ ((roundEven (v / 2 ^ d) : ℤ) : ℚ) * 2 ^ d := le_mul_of_one_le_left (two_zpow_pos d).le h2
    _ = v := hn

/-- They are not subnormal. -/
theorem coarse_ordinary (hl : fmt.least ≤ 2 - 2 * fmt.digits) (x : fmt.coarse.Num) : ¬ (Ieee.of fmt.coarse_within x).Subnormal := by
  rintro ⟨h1, h2⟩
  rw [Ieee.magnitudeOf_val] at h1 h2
  have h3 := Num.least_le x h1
  have h4 : (2 : ℚ) ^ (fmt.least + fmt.digits - 1) ≤ 2 ^ fmt.coarse.least := zpow_le_zpow_right₀ (by norm_num) (by show _ ≤ 1 - (fmt.digits : ℤ); omega)
  linarith

end Format

section
variable {fmt : Format} (flush : Flush fmt) (hl : fmt.least ≤ 2 - 2 * fmt.digits) {k : ℕ} (hk : k < fmt.top)
include hl hk
open Ieee

/-- Penalties of edges computed by such a device are those of a device with subnormal numbers. -/
theorem flush_penalty {a b w u v : ℕ} (hab : a + 2 * b ≤ k) (hw : w ≤ 2 ^ a) (hu : u ≤ 2 ^ b) (hv : v ≤ 2 ^ b) :
    ∃ p : fmt.coarse.Num, (mul (ofNat w) (sqr (sub (ofNat u) (ofNat v))) : Ieee fmt) = of fmt.coarse_within p ∧
      sub (of fmt.coarse_within p) zero = of fmt.coarse_within p ∧
      (mul (ofNat w) (sqr (sub (ofNat u) (ofNat v))) : Flushing flush) = ⟨of fmt.coarse_within p⟩ ∧
      sub (⟨of fmt.coarse_within p⟩ : Flushing flush) zero = ⟨of fmt.coarse_within p⟩ := by
  have ag := fmt.coarse_agree hk
  have ord := Format.coarse_ordinary hl
  obtain ⟨hp, e⟩ := penalty_of ag hab hw hu hv
  obtain ⟨x, -, ex⟩ := square_of ag (b := b) (by omega) hu hv
  obtain ⟨eu, su⟩ := ofNat_of ag hu (by omega)
  obtain ⟨ev, sv⟩ := ofNat_of ag hv (by omega)
  obtain ⟨ew, -⟩ := ofNat_of ag hw (by omega)
  have small : ∀ {x : fmt.coarse.Num}, Small b x → Small k x := fun ⟨n, h1, h2⟩ => ⟨n, h1, h2.trans (Nat.pow_le_pow_right (by norm_num) (by omega))⟩
  have ed := (Ieee.hom ag).sub _ _ (small su) (small sv)
  simp only at ed
  have e0 : sub (of fmt.coarse_within (mul (ofNat w) (sqr (sub (ofNat u) (ofNat v))))) zero =
      of fmt.coarse_within (mul (ofNat w) (sqr (sub (ofNat u) (ofNat v)))) := by
    have := (Ieee.hom ag).sub _ _ hp (Ieee.hom ag).P_zero
    rw [LawfulFloat.sub_zero] at this
    refine Eq.trans ?_ this.symm
    rw [(Ieee.hom ag).zero]
  have oz : ¬ (zero : Ieee fmt).Subnormal := by
    rw [← of_zero fmt.coarse_within]
    exact ord _
  refine ⟨mul (ofNat w) (sqr (sub (ofNat u) (ofNat v))), e.symm, e0, ?_, ?_⟩
  · have f1 : flush.sub (ofNat u) (ofNat v) = sub (ofNat u) (ofNat v) := by
      refine flush.sub_eq (eu ▸ ord _) (ev ▸ ord _) ?_
      rw [← eu, ← ev, ← ed]
      exact ord _
    have f2 : flush.mul (sub (ofNat u) (ofNat v)) (sub (ofNat u) (ofNat v)) = sqr (sub (ofNat u) (ofNat v)) := by
      refine flush.mul_eq ?_ ?_ ?_
      · rw [← eu, ← ev, ← ed]
        exact ord _
      · rw [← eu, ← ev, ← ed]
        exact ord _
      · show ¬ (sqr (sub (ofNat u) (ofNat v)) : Ieee fmt).Subnormal
        rw [← ex]
        exact ord _
    have f3 : flush.mul (ofNat w) (sqr (sub (ofNat u) (ofNat v))) = mul (ofNat w) (sqr (sub (ofNat u) (ofNat v))) := by
      refine flush.mul_eq (ew ▸ ord _) (ex ▸ ord _) ?_
      rw [← e]
      exact ord _
    rw [e]
    show (⟨flush.mul (ofNat w) (flush.mul (flush.sub (ofNat u) (ofNat v)) (flush.sub (ofNat u) (ofNat v)))⟩ : Flushing flush) = _
    rw [f1, f2, f3]
  · refine congrArg Flushing.mk ((flush.sub_eq (ord _) oz ?_).trans e0)
    rw [e0]
    exact ord _

omit hk in
/-- A threshold that has been replaced by zero accepts less. -/
theorem flush_le {p : fmt.coarse.Num} {x y : Ieee fmt} (hx : ∀ m, x ≠ fin true m) (hy : x.Flushed y)
    (h : flush.le (of fmt.coarse_within p) y = true) : le (of fmt.coarse_within p) x = true := by
  obtain ⟨p', y', h1, h2, h3⟩ := flush.le_flushed (of fmt.coarse_within p) y
  rw [h1.eq (Format.coarse_ordinary hl p)] at h3
  rw [h3] at h
  have hor : y' = x ∨ x.Subnormal ∧ ∃ s, y' = signedZero s := by
    rcases hy with rfl | ⟨hs, s, rfl⟩
    · exact h2
    · rcases h2 with rfl | ⟨-, s', rfl⟩
      · exact .inr ⟨hs, s, rfl⟩
      · exact .inr ⟨hs, s', rfl⟩
  rcases hor with rfl | ⟨hs, s, rfl⟩
  · exact h
  · rcases x with _ | t | ⟨t, m⟩
    · exact hs.elim
    · exact hs.elim
    · obtain rfl : t = false := by
        cases t
        · rfl
        · exact absurd rfl (hx m)
      have h4 : signed (decide (p.1 < 0)) (magnitudeOf fmt.coarse_within p) ≤ signed s _ := of_decide_eq_true h
      rw [signed_abs, signed_zero] at h4
      refine decide_eq_true ?_
      rw [signed_abs]
      exact h4.trans m.2.1

end

end SP
