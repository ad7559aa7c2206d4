import Verif.Lemmas.TransferWorld
/-!
# Exact computations

Integers up to `2^digits` are computed exactly: numbers of a format carry the computations with rational numbers.
-/
namespace SP
open FloatOps

namespace Format
variable {fmt : Format} {k : ℕ}

/-- Integers that are not too large are not rounded. -/
theorem round_exact (hk : k ≤ fmt.digits) {n : ℤ} (h : |n| ≤ 2 ^ k) : (fmt.rounding.round n).1 = n := by
  have hk' : k < fmt.top := hk.trans_lt fmt.digits_lt
  have hnat : ((n.natAbs : ℕ) : ℚ) = |(n : ℚ)| := by rw [Nat.cast_natAbs, Int.cast_abs]
  have hle : n.natAbs ≤ 2 ^ fmt.digits := by
    have : (n.natAbs : ℤ) ≤ 2 ^ k := by rwa [Int.natCast_natAbs]
    have : n.natAbs ≤ 2 ^ k := by exact_mod_cast this
    exact this.trans (Nat.pow_le_pow_right (by norm_num) hk)
  have hnear : fmt.near (n : ℚ) = n := by
    rcases le_total 0 (n : ℚ) with h0 | h0
    · refine (toNearest_nonneg h0).trans ?_
      rw [← abs_of_nonneg h0, ← hnat]
      exact nearest_exact hle
    · refine (toNearest_nonpos h0).trans ?_
      rw [← abs_of_nonpos h0, ← hnat]
      rw [show SP.nearest fmt.digits fmt.least ((n.natAbs : ℕ) : ℚ) = _ from nearest_exact hle, hnat, abs_of_nonpos h0, neg_neg]
  refine (toFinite_eq ?_).trans hnear
  rw [hnear, ← Int.cast_abs]
  refine le_trans ?_ (fmt.pow_le_largest hk')
  exact_mod_cast h

/-- The value of a number. -/
def value (x : fmt.Num) : ℚ := x.1

theorem ofNat_exact (hk : k ≤ fmt.digits) {n : ℕ} (h : n ≤ 2 ^ k) : (ofNat n : fmt.Num).1 = n := by
  have := round_exact hk (n := n) (by rw [abs_of_nonneg (by positivity)]; exact_mod_cast h)
  push_cast at this
  exact this

theorem sub_exact (hk : k ≤ fmt.digits) {a b : fmt.Num} {m n : ℤ} (ha : a.1 = m) (hb : b.1 = n) (h : |m - n| ≤ 2 ^ k) :
    (sub a b).1 = ((m - n : ℤ) : ℚ) := by
  have := round_exact hk h
  rw [← this]
  show (fmt.rounding.round (a.1 - b.1)).1 = _
  rw [ha, hb]
  push_cast
  rfl

theorem mul_exact (hk : k ≤ fmt.digits) {a b : fmt.Num} {m n : ℤ} (ha : a.1 = m) (hb : b.1 = n) (h : |m * n| ≤ 2 ^ k) :
    (mul a b).1 = ((m * n : ℤ) : ℚ) := by
  have := round_exact hk h
  rw [← this]
  show (fmt.rounding.round (a.1 * b.1)).1 = _
  rw [ha, hb]
  push_cast
  rfl

/-- Everything computed for a penalty is exact. -/
theorem penalty_exact (hk : k ≤ fmt.digits) {a b w u v : ℕ} (hab : a + 2 * b ≤ k) (hw : w ≤ 2 ^ a) (hu : u ≤ 2 ^ b) (hv : v ≤ 2 ^ b) :
    Ieee.Small k (mul (ofNat w) (sqr (sub (ofNat u) (ofNat v))) : fmt.Num) ∧
    (mul (ofNat w) (sqr (sub (ofNat u) (ofNat v))) : fmt.Num).1 = mul (ofNat w) (sqr (sub (ofNat u : ℚ) (ofNat v))) := by
  have hpow : ∀ {i j : ℕ}, i ≤ j → (2 : ℤ) ^ i ≤ 2 ^ j := fun h => pow_le_pow_right₀ (by norm_num) h
  have hd : |(u : ℤ) - v| ≤ 2 ^ b := by
    have : (u : ℤ) ≤ 2 ^ b := by exact_mod_cast hu
    have : (v : ℤ) ≤ 2 ^ b := by exact_mod_cast hv
    rw [abs_le]
    constructor <;> omega
  have hs : |((u : ℤ) - v) * (u - v)| ≤ 2 ^ (2 * b) := by
    rw [abs_mul, two_mul, pow_add]
    exact mul_le_mul hd hd (abs_nonneg _) (by positivity)
  have hp : |(w : ℤ) * (((u : ℤ) - v) * (u - v))| ≤ 2 ^ k := by
    refine le_trans ?_ (hpow hab)
    rw [abs_mul, pow_add, abs_of_nonneg (by positivity : (0 : ℤ) ≤ w)]
    exact mul_le_mul (by exact_mod_cast hw) hs (abs_nonneg _) (by positivity)
  have e1 := ofNat_exact (k := k) hk (hw.trans (Nat.pow_le_pow_right (by norm_num) (by omega)))
  have e2 := ofNat_exact (k := k) hk (hu.trans (Nat.pow_le_pow_right (by norm_num) (by omega)))
  have e3 := ofNat_exact (k := k) hk (hv.trans (Nat.pow_le_pow_right (by norm_num) (by omega)))
  have e4 := sub_exact hk (m := u) (n := v) (by rw [e2]; simp) (by rw [e3]; simp) (hd.trans (hpow (by omega)))
  have e5 := mul_exact hk e4 e4 (hs.trans (hpow (by omega)))
  have e6 := mul_exact hk (a := ofNat w) (m := w) (by rw [e1]; simp) e5 hp
  refine ⟨Ieee.small_of e6 ?_ hp, ?_⟩
  · refine le_of_le_of_eq ?_ e6.symm
    exact_mod_cast mul_nonneg (by positivity) (mul_self_nonneg _)
  · refine e6.trans ?_
    show _ = (w : ℚ) * (((u : ℚ) - v) * ((u : ℚ) - v))
    push_cast
    ring

/-- Comparisons and differences are exact. -/
theorem value_hom (hk : k ≤ fmt.digits) : Hom (.of (value (fmt := fmt))) (Ieee.Small k) where
  le a b := rfl
  lt a b := rfl
  eq a b := by
    rw [Bool.eq_iff_iff, LawfulFloat.eq_iff, LawfulFloat.eq_iff]
    exact ⟨Subtype.ext, congrArg _⟩
  zero := show value (zero : fmt.Num) = zero from (Rounding.zero_val _).trans (by show (0 : ℚ) = ((0 : ℕ) : ℚ); simp)
  minusOne := by
    have := round_exact (fmt := fmt) (k := k) hk (n := -1) (by
      have : (1 : ℤ) ≤ 2 ^ k := one_le_pow₀ (by norm_num)
      rw [abs_neg, abs_one]
      exact this)
    push_cast at this
    exact this
  sub a b := by
    rintro ⟨m, hm, ha⟩ ⟨n, hn, hb⟩
    have : (m : ℤ) ≤ 2 ^ k := by exact_mod_cast ha
    have : (n : ℤ) ≤ 2 ^ k := by exact_mod_cast hb
    refine (sub_exact hk (m := m) (n := n) (by rw [hm]; simp) (by rw [hn]; simp) (by rw [abs_le]; constructor <;> omega)).trans ?_
    show _ = a.1 - b.1
    rw [hm, hn]
    push_cast
    rfl
  P_zero := ⟨0, by rw [Rounding.zero_val]; simp, by positivity⟩

/-- Numbers carry exact computations. -/
theorem value_carrier (hk : k ≤ fmt.digits) : Carrier (value (fmt := fmt)) (Ieee.Small k) k where
  toHom := value_hom hk
  ofNat n hn := ofNat_exact hk hn
  epsilon n hn := by
    show decide (((n : ℕ) : ℚ) < 1 / 2 ^ 52) = decide (_ < (2 : ℚ) ^ (1 - fmt.digits : ℤ))
    rw [ofNat_exact hk hn, decide_eq_decide, Ieee.lt_eps]
    constructor
    · intro h
      by_contra h0
      have : (1 : ℚ) ≤ n := by exact_mod_cast Nat.one_le_iff_ne_zero.2 h0
      have : (1 : ℚ) / 2 ^ 52 < 1 := by norm_num
      linarith
    · rintro rfl
      norm_num
  penalty a b w u v hab hw hu hv := (value_hom hk).penalties (fun _ _ => LawfulFloat.add_zero (F := ℚ) _) (fun a _ => LawfulFloat.sub_zero a)
    (penalty_exact hk hab hw hu hv)
  add_zero a _ := LawfulFloat.add_zero a
  add_zero' a _ := LawfulFloat.add_zero (F := ℚ) _
  sub_zero a _ := LawfulFloat.sub_zero a

/-- Differences of penalties. -/
def Difference (k : ℕ) (x : fmt.Num) : Prop := ∃ n : ℤ, x.1 = n ∧ |n| ≤ 2 ^ k

theorem difference_of (hk : k ≤ fmt.digits) (a b : fmt.Num) (ha : Ieee.Small k a) (hb : Ieee.Small k b) : Difference k (sub a b) := by
  obtain ⟨m, hm, ha⟩ := ha
  obtain ⟨n, hn, hb⟩ := hb
  have : (m : ℤ) ≤ 2 ^ k := by exact_mod_cast ha
  have : (n : ℤ) ≤ 2 ^ k := by exact_mod_cast hb
  have h : |(m : ℤ) - n| ≤ 2 ^ k := by rw [abs_le]; constructor <;> omega
  exact ⟨m - n, sub_exact hk (by rw [hm]; simp) (by rw [hn]; simp) h, h⟩

/-- An integer that cuts integers as the given number does. -/
theorem cut_value (hk : k ≤ fmt.digits) : Cut (value (fmt := fmt)) (Difference k) := by
  intro t
  by_cases h : (-2 ^ k : ℚ) ≤ t
  · right
    set n : ℤ := ⌊min t (2 ^ k)⌋ with hn
    have hpos : (0 : ℚ) ≤ 2 ^ k := by positivity
    have h1 : n ≤ 2 ^ k := by
      have : (n : ℚ) ≤ 2 ^ k := (Int.floor_le _).trans (min_le_right _ _)
      exact_mod_cast this
    have h2 : -2 ^ k ≤ n := by
      rw [hn, Int.le_floor]
      push_cast
      exact le_min h (by linarith)
    have e := round_exact hk (n := n) (abs_le.2 ⟨h2, h1⟩)
    refine ⟨fmt.rounding.round n, ?_, ?_⟩
    · rintro a ⟨m, hm, hm'⟩ hle
      rw [show le (value a) t = decide (a.1 ≤ t) from rfl, decide_eq_true_eq] at hle
      rw [show le a (fmt.rounding.round n) = decide (a.1 ≤ (fmt.rounding.round n).1) from rfl, decide_eq_true_eq, e, hm]
      have : m ≤ n := by
        rw [hn, Int.le_floor]
        refine le_min (hm ▸ hle) ?_
        exact_mod_cast (abs_le.1 hm').2
      exact_mod_cast this
    · intro a ha
      rw [show le a (fmt.rounding.round n) = decide (a.1 ≤ (fmt.rounding.round n).1) from rfl, decide_eq_true_eq, e] at ha
      rw [show le (value a) t = decide (a.1 ≤ t) from rfl, decide_eq_true_eq]
      exact ha.trans ((Int.floor_le _).trans (min_le_left _ _))
  · left
    rintro a ⟨m, hm, hm'⟩
    rw [show le (value a) t = decide (a.1 ≤ t) from rfl, decide_eq_false_iff_not, hm]
    have : (-2 ^ k : ℚ) ≤ m := by exact_mod_cast (abs_le.1 hm').1
    intro hc
    exact h (this.trans hc)

end Format

namespace Ieee
variable {fmt fmt' : Format}

/-- Conversion to the format of the number. -/
theorem convert_of (wi : fmt.Within fmt') (x : fmt.Num) : (convert (of wi x) : Ieee fmt) = of (.refl fmt) x := by
  have habs : fmt.nearest |(magnitudeOf wi x).1| = |x.1| := by
    rw [magnitudeOf_val, abs_abs]
    have h := fmt.abs_near x.1
    rw [x.near] at h
    exact h.symm
  show rounded _ _ = _
  unfold rounded
  rw [dif_pos (by rw [habs]; exact x.le.trans_lt fmt.largest_lt)]
  exact of_eq _ rfl habs

/-- Each number but NaN cuts finite numbers as a finite number does, unless it is less than all of them. -/
theorem cut_of (fmt : Format) : Cut (of (.refl fmt)) fun _ => True := by
  intro t
  cases t with
  | nan => exact .inl fun a _ => rfl
  | inf s =>
    cases s
    · right
      have hl : |fmt.near fmt.largest| ≤ fmt.largest := by rw [fmt.near_largest, abs_of_pos fmt.largest_pos]
      refine ⟨⟨fmt.largest, (Format.toFinite_eq hl).trans fmt.near_largest⟩, fun a _ _ => ?_, fun a _ => rfl⟩
      show decide (a.1 ≤ fmt.largest) = true
      rw [decide_eq_true_eq]
      exact (le_abs_self _).trans a.le
    · exact .inl fun a _ => rfl
  | fin s m =>
    right
    have habs : |signed s m| = m.1 := by
      unfold signed
      cases s
      · exact abs_of_nonneg m.2.1
      · exact (abs_neg _).trans (abs_of_nonneg m.2.1)
    have hnear : fmt.near (signed s m) = signed s m := by
      unfold signed
      cases s
      · exact (toNearest_nonneg m.2.1).trans m.2.2.2
      · refine (toNearest_neg m.1).trans ?_
        rw [toNearest_nonneg m.2.1]
        exact congrArg Neg.neg m.2.2.2
    have hl : |fmt.near (signed s m)| ≤ fmt.largest := by
      rw [hnear, habs]
      exact fmt.le_largest m
    have key : ∀ a : fmt.Num, le (of (.refl fmt) a) (fin s m) = decide (a.1 ≤ signed s m) := by
      intro a
      show atMost (fin _ _) (fin _ _) = _
      simp only [atMost, signed_abs]
    exact ⟨⟨signed s m, (Format.toFinite_eq hl).trans hnear⟩, fun a _ h => (key a).symm.trans h, fun a h => (key a).trans h⟩

end Ieee
end SP
