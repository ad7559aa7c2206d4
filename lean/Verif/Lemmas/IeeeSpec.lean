import Verif.Spec.Ieee
import Verif.Lemmas.Contracted
/-!
# Numbers of the model are those of IEEE 754
-/
namespace SP
open FloatOps

/-- The rounded number is the nearest integer. -/
theorem roundEven_near (q : ℚ) (m : ℤ) : |q - roundEven q| ≤ |q - m| := by
  have h1 : (⌊q⌋ : ℚ) ≤ q := Int.floor_le q
  have h2 : q < ⌊q⌋ + 1 := Int.lt_floor_add_one q
  have hm : m ≤ ⌊q⌋ ∨ ⌊q⌋ + 1 ≤ m := by omega
  have hm' : (m : ℚ) ≤ ⌊q⌋ ∨ (⌊q⌋ : ℚ) + 1 ≤ m := by
    rcases hm with h | h
    · exact .inl (by exact_mod_cast h)
    · exact .inr (by exact_mod_cast h)
  have key : |q - m| ≥ q - ⌊q⌋ ∨ |q - m| ≥ ⌊q⌋ + 1 - q := by
    rcases hm' with h | h
    · exact .inl ((by linarith : q - ⌊q⌋ ≤ q - m).trans (le_abs_self _))
    · exact .inr ((by linarith : ⌊q⌋ + 1 - q ≤ -(q - m)).trans (neg_le_abs _))
  have hd : |q - ⌊q⌋| = q - ⌊q⌋ := abs_of_nonneg (by linarith)
  have hu : |q - ((⌊q⌋ + 1 : ℤ) : ℚ)| = ⌊q⌋ + 1 - q := by
    push_cast
    rw [abs_of_nonpos (by linarith)]
    ring
  unfold roundEven
  split_ifs with c1 c2 c3
  · rw [hd]; rcases key with k | k <;> linarith
  · rw [hu]; rcases key with k | k <;> linarith
  · rw [hd]; rcases key with k | k <;> linarith
  · rw [hu]; rcases key with k | k <;> linarith

/-- If there is another one, then it is the neighbor and the rounded one is even. -/
theorem roundEven_tie (q : ℚ) (m : ℤ) (hm : m ≠ roundEven q) (h : |q - roundEven q| = |q - m|) :
    |((roundEven q : ℤ) : ℚ) - m| = 1 ∧ roundEven q % 2 = 0 := by
  have h1 : (⌊q⌋ : ℚ) ≤ q := Int.floor_le q
  have h2 : q < ⌊q⌋ + 1 := Int.lt_floor_add_one q
  have hd : |q - ⌊q⌋| = q - ⌊q⌋ := abs_of_nonneg (by linarith)
  have hu : |q - ((⌊q⌋ + 1 : ℤ) : ℚ)| = ⌊q⌋ + 1 - q := by
    push_cast
    rw [abs_of_nonpos (by linarith)]
    ring
  have hb : |q - roundEven q| ≤ 1 / 2 := by
    unfold roundEven
    split_ifs with c1 c2 c3
    · rw [hd]; linarith
    · rw [hu]; linarith
    · rw [hd]; linarith
    · rw [hu]; linarith
  have hm2 : m = ⌊q⌋ ∨ m = ⌊q⌋ + 1 := by
    rw [h] at hb
    have hb := abs_le.1 hb
    have a1 : (m : ℚ) < ⌊q⌋ + 2 := by linarith [hb.1]
    have a2 : (⌊q⌋ : ℚ) - 1 < m := by linarith [hb.2]
    have a1 : m < ⌊q⌋ + 2 := by exact_mod_cast a1
    have a2 : ⌊q⌋ - 1 < m := by exact_mod_cast a2
    omega
  revert hm h
  unfold roundEven
  split_ifs with c1 c2 c3 <;> intro hm h
  · rcases hm2 with rfl | rfl
    · exact absurd rfl hm
    · rw [hd, hu] at h; linarith
  · rcases hm2 with rfl | rfl
    · rw [hd, hu] at h; linarith
    · exact absurd rfl hm
  · rcases hm2 with rfl | rfl
    · exact absurd rfl hm
    · refine ⟨?_, c3⟩
      push_cast
      rw [show (⌊q⌋ : ℚ) - (⌊q⌋ + 1) = -1 by ring]
      norm_num
  · rcases hm2 with rfl | rfl
    · refine ⟨?_, by omega⟩
      push_cast
      rw [show (⌊q⌋ : ℚ) + 1 - ⌊q⌋ = 1 by ring]
      norm_num
    · exact absurd rfl hm

namespace Format
variable {fmt : Format}

theorem Representable.nonneg {x : ℚ} (h : fmt.Representable x) : 0 ≤ x := by
  obtain ⟨n, e, -, -, rfl⟩ := h
  exact mul_nonneg (Nat.cast_nonneg n) (two_zpow_pos e).le

/-- A representable number is a multiple of the last digit of another one, or it is less than a multiple that is not greater than the other one. -/
theorem Representable.multiple {z v : ℚ} (hz : fmt.Representable z) (hv : 0 < v) :
    (∃ m : ℤ, z = m * 2 ^ lastDigit fmt.digits fmt.least v) ∨
    ∃ m : ℤ, z < m * 2 ^ lastDigit fmt.digits fmt.least v ∧ m * 2 ^ lastDigit fmt.digits fmt.least v ≤ v := by
  obtain ⟨n, e, hn, he, rfl⟩ := hz
  set d := lastDigit fmt.digits fmt.least v with hd
  rcases le_or_gt d e with h | h
  · left
    obtain ⟨k, hk⟩ := Int.le.dest h
    refine ⟨n * 2 ^ k, ?_⟩
    rw [← hk, zpow_add₀ (by norm_num), zpow_natCast]
    push_cast
    ring
  · right
    have hdl : d = Int.log 2 v + 1 - fmt.digits := by
      have h' : d = max (Int.log 2 v + 1 - fmt.digits) fmt.least := rfl
      omega
    have hdig := fmt.digits_pos
    refine ⟨2 ^ (fmt.digits - 1), ?_⟩
    have hpow : (((2 ^ (fmt.digits - 1) : ℤ)) : ℚ) * 2 ^ d = 2 ^ Int.log 2 v := by
      push_cast
      rw [← zpow_natCast, ← zpow_add₀ (by norm_num)]
      congr 1
      omega
    rw [hpow]
    refine ⟨?_, pow_log_le hv⟩
    have hnq : (n : ℚ) < 2 ^ fmt.digits := by exact_mod_cast hn
    calc (n : ℚ) * 2 ^ e < 2 ^ fmt.digits * 2 ^ e := mul_lt_mul_of_pos_right hnq (two_zpow_pos e)
      _ = 2 ^ (fmt.digits + e) := by rw [zpow_add₀ (by norm_num), zpow_natCast]
      _ ≤ 2 ^ Int.log 2 v := zpow_le_zpow_right₀ (by norm_num) (by omega)

theorem nearest_representable {v : ℚ} (hv : 0 ≤ v) : fmt.Representable (fmt.nearest v) := by
  rcases hv.eq_or_lt with rfl | hv
  · exact ⟨0, fmt.least, by positivity, le_rfl, by simp [Format.nearest]⟩
  set d := lastDigit fmt.digits fmt.least v with hd
  have h0 : 0 ≤ roundEven (v / 2 ^ d) := le_roundEven (by push_cast; exact div_nonneg hv.le (two_zpow_pos _).le)
  have hp : roundEven (v / 2 ^ d) ≤ 2 ^ fmt.digits := by
    apply roundEven_le
    rw [div_le_iff₀ (two_zpow_pos d)]
    push_cast
    rw [← zpow_natCast, ← zpow_add₀ (by norm_num)]
    refine (lt_pow_log v).le.trans (zpow_le_zpow_right₀ (by norm_num) ?_)
    have : Int.log 2 v + 1 - fmt.digits ≤ d := le_max_left _ _
    omega
  have hmin : fmt.least ≤ d := lastDigit_ge v
  obtain ⟨n, hn⟩ := Int.eq_ofNat_of_zero_le h0
  have e : fmt.nearest v = n * 2 ^ d := by
    show (roundEven (v / 2 ^ d) : ℚ) * 2 ^ d = _
    rw [hn]
    push_cast
    rfl
  rw [e]
  rcases hp.lt_or_eq with h | h
  · exact ⟨n, d, by rw [hn] at h; exact_mod_cast h, hmin, rfl⟩
  · refine ⟨2 ^ (fmt.digits - 1), d + 1, Nat.pow_lt_pow_right (by norm_num) (Nat.sub_lt fmt.digits_pos one_pos), by omega, ?_⟩
    rw [hn] at h
    have h : (n : ℚ) = 2 ^ fmt.digits := by exact_mod_cast h
    rw [h, zpow_add₀ (by norm_num), zpow_one]
    push_cast
    obtain ⟨q, hq⟩ : ∃ q, fmt.digits = q + 1 := ⟨fmt.digits - 1, by have := fmt.digits_pos; omega⟩
    rw [hq, pow_succ, Nat.add_sub_cancel]
    ring

theorem nearest_of_representable {v : ℚ} (h : fmt.Representable v) : fmt.nearest v = v := by
  rcases h.nonneg.eq_or_lt with rfl | hv
  · exact nearest_zero
  rcases h.multiple hv with ⟨m, hm⟩ | ⟨m, h1, h2⟩
  · exact nearest_of_multiple hm le_rfl
  · exact absurd (h1.trans_le h2) (lt_irrefl _)

theorem scaled (v : ℚ) (m d : ℤ) : |v - m * 2 ^ d| = |v / 2 ^ d - m| * 2 ^ d := by
  have h := two_zpow_pos d
  rw [← abs_of_pos h, ← abs_mul, abs_of_pos h, sub_mul, div_mul_cancel₀ _ h.ne']

/-- What `nearest` computes is what the standard says. -/
theorem nearest_nearest {v : ℚ} (hv : 0 ≤ v) : fmt.Nearest v (fmt.nearest v) := by
  rcases hv.eq_or_lt with rfl | hv
  · rw [show fmt.nearest 0 = 0 from nearest_zero]
    refine ⟨⟨0, fmt.least, by positivity, le_rfl, by simp⟩, fun z _ => ?_, fun z _ hz h => ?_⟩
    · rw [sub_zero, abs_zero]
      exact abs_nonneg _
    · exact ⟨0, by simp⟩
  set d := lastDigit fmt.digits fmt.least v with hd
  have e : fmt.nearest v = roundEven (v / 2 ^ d) * 2 ^ d := rfl
  have hle : ∀ m : ℤ, |v - fmt.nearest v| ≤ |v - m * 2 ^ d| := by
    intro m
    rw [e, scaled, scaled]
    exact mul_le_mul_of_nonneg_right (roundEven_near _ _) (two_zpow_pos d).le
  have hlt : ∀ (z : ℚ) (m : ℤ), z < m * 2 ^ d → m * 2 ^ d ≤ v → |v - fmt.nearest v| < |v - z| := by
    intro z m h1 h2
    refine (hle m).trans_lt ?_
    rw [abs_of_nonneg (by linarith), abs_of_nonneg (by linarith)]
    linarith
  refine ⟨nearest_representable hv.le, fun z hz => ?_, fun z hz hne h => ?_⟩
  · rcases hz.multiple hv with ⟨m, rfl⟩ | ⟨m, h1, h2⟩
    · exact hle m
    · exact (hlt z m h1 h2).le
  · rcases hz.multiple hv with ⟨m, rfl⟩ | ⟨m, h1, h2⟩
    · rw [e, scaled, ← hd, scaled] at h
      obtain ⟨h1, h2⟩ := roundEven_tie (v / 2 ^ d) m (fun hm => hne (by rw [hm]; rfl)) (mul_right_cancel₀ (two_zpow_pos d).ne' h)
      refine ⟨roundEven (v / 2 ^ d) / 2, ?_⟩
      have h3 : |fmt.nearest v - m * 2 ^ d| = 2 ^ d := by
        rw [e, ← sub_mul, abs_mul, h1, one_mul, abs_of_pos (two_zpow_pos d)]
      rw [← hd, h3, e]
      congr 1
      have : roundEven (v / 2 ^ d) = 2 * (roundEven (v / 2 ^ d) / 2) := by omega
      exact_mod_cast this
    · exact absurd h (hlt z m h1 h2).ne

/-- There is one such number. -/
theorem Nearest.unique {v x y : ℚ} (hx : fmt.Nearest v x) (hy : fmt.Nearest v y) : x = y := by
  by_contra hne
  have h : |v - x| = |v - y| := le_antisymm (hx.nearest y hy.representable) (hy.nearest x hx.representable)
  obtain ⟨m, hm⟩ := hx.even y hy.representable (Ne.symm hne) h
  obtain ⟨n, hn⟩ := hy.even x hx.representable hne h.symm
  rw [abs_sub_comm y x] at hn
  have hpos : 0 < |x - y| := abs_pos.2 (sub_ne_zero.2 hne)
  have h1 : x - y = (2 * m - 2 * n) * |x - y| := by
    rw [sub_mul, ← hm, ← hn]
  rcases abs_choice (x - y) with h2 | h2
  · have h3 : (1 : ℚ) = 2 * m - 2 * n := by
      apply mul_right_cancel₀ hpos.ne'
      rw [one_mul, ← h1, h2]
    have : (1 : ℤ) = 2 * m - 2 * n := by exact_mod_cast h3
    omega
  · have h3 : (-1 : ℚ) = 2 * m - 2 * n := by
      apply mul_right_cancel₀ hpos.ne'
      rw [← h1, h2]
      ring
    have : (-1 : ℤ) = 2 * m - 2 * n := by exact_mod_cast h3
    omega

theorem nearest_iff {v x : ℚ} (hv : 0 ≤ v) : fmt.Nearest v x ↔ x = fmt.nearest v :=
  ⟨fun h => h.unique (nearest_nearest hv), fun h => h ▸ nearest_nearest hv⟩

/-- Finite numbers are those with the digits of the format that are less than the power of two. -/
theorem magnitude_iff (x : ℚ) : (∃ m : fmt.Magnitude, m.1 = x) ↔ fmt.Representable x ∧ x < 2 ^ fmt.top := by
  constructor
  · rintro ⟨⟨x, h0, h1, h2⟩, rfl⟩
    refine ⟨?_, h1⟩
    have := nearest_representable (fmt := fmt) h0
    rwa [h2] at this
  · rintro ⟨h1, h2⟩
    exact ⟨⟨x, h1.nonneg, h2, nearest_of_representable h1⟩, rfl⟩

/-- Which numbers are rounded to too large ones. -/
theorem overflow_iff {v : ℚ} (hv : 0 ≤ v) : fmt.nearest v < fmt.overflow ↔ v < fmt.tooLarge := by
  have hdig := fmt.digits_pos
  have hlt := fmt.digits_lt
  have hleast := fmt.least_le
  have hov : fmt.overflow = 2 ^ fmt.top := rfl
  -- the largest number
  set u : ℚ := 2 ^ ((fmt.top : ℤ) - fmt.digits) with hu
  have hupos : 0 < u := two_zpow_pos _
  have hhalf : (2 : ℚ) ^ ((fmt.top : ℤ) - fmt.digits - 1) = u / 2 := by
    rw [hu, zpow_sub_one₀ (by norm_num)]
    ring
  have htop : (2 : ℚ) ^ fmt.top = 2 ^ fmt.digits * u := by
    rw [hu, ← zpow_natCast, ← zpow_natCast, ← zpow_add₀ (by norm_num)]
    congr 1
    omega
  have hlast : fmt.Representable (((2 ^ fmt.digits - 1 : ℕ) : ℚ) * u) :=
    ⟨2 ^ fmt.digits - 1, fmt.top - fmt.digits, Nat.sub_lt (by positivity) one_pos, by omega, rfl⟩
  have hpow : (1 : ℕ) ≤ 2 ^ fmt.digits := Nat.one_le_two_pow
  have hlastval : (((2 ^ fmt.digits - 1 : ℕ) : ℚ) * u) = 2 ^ fmt.top - u := by
    rw [htop]
    push_cast [hpow]
    ring
  rw [hlastval] at hlast
  have hnext : fmt.Representable ((2 : ℚ) ^ fmt.top) :=
    ⟨1, fmt.top, Nat.one_lt_two_pow (by omega), by omega, by rw [Nat.cast_one, one_mul, zpow_natCast]⟩
  unfold tooLarge
  rw [hhalf, hov]
  constructor
  · intro h
    by_contra hge
    rw [not_lt] at hge
    rcases le_or_gt (2 ^ fmt.top) v with h1 | h1
    · have := nearest_mono (p := fmt.digits) (emin := fmt.least) hdig (by positivity) h1
      rw [show SP.nearest fmt.digits fmt.least (2 ^ fmt.top) = 2 ^ fmt.top from nearest_of_representable hnext] at this
      exact absurd (this.trans_lt h) (lt_irrefl _)
    · have hn := nearest_nearest (fmt := fmt) hv
      set y := fmt.nearest v
      have hy : y ≤ 2 ^ fmt.top - u := by
        obtain ⟨n, e, h2, h3, h4⟩ := hn.representable
        rcases le_or_gt ((fmt.top : ℤ) - fmt.digits) e with he | he
        · obtain ⟨k, hk⟩ := Int.le.dest he
          have h5 : y = ((n * 2 ^ k : ℕ) : ℚ) * u := by
            rw [h4, ← hk, zpow_add₀ (by norm_num), zpow_natCast, ← hu]
            push_cast
            ring
          have h6 : ((n * 2 ^ k : ℕ) : ℚ) < 2 ^ fmt.digits := by
            rw [h5, htop] at h
            exact lt_of_mul_lt_mul_right h hupos.le
          have h6 : n * 2 ^ k < 2 ^ fmt.digits := by exact_mod_cast h6
          rw [← hlastval, h5]
          refine mul_le_mul_of_nonneg_right ?_ hupos.le
          exact_mod_cast Nat.le_sub_one_of_lt h6
        · have h5 : (n : ℚ) < 2 ^ fmt.digits := by exact_mod_cast h2
          have h6 : y ≤ 2 ^ ((fmt.top : ℤ) - 1) := by
            rw [h4]
            calc (n : ℚ) * 2 ^ e ≤ 2 ^ fmt.digits * 2 ^ e := mul_le_mul_of_nonneg_right h5.le (two_zpow_pos e).le
              _ = 2 ^ (fmt.digits + e) := by rw [zpow_add₀ (by norm_num), zpow_natCast]
              _ ≤ 2 ^ ((fmt.top : ℤ) - 1) := zpow_le_zpow_right₀ (by norm_num) (by omega)
          have h7 : (2 : ℚ) ^ ((fmt.top : ℤ) - 1) = 2 ^ fmt.top / 2 := by
            rw [zpow_sub_one₀ (by norm_num), zpow_natCast]
            ring
          have h8 : u ≤ 2 ^ ((fmt.top : ℤ) - 1) := zpow_le_zpow_right₀ (by norm_num) (by omega)
          rw [h7] at h6 h8
          linarith
      have h2 := hn.nearest _ hnext
      rw [abs_sub_comm v (2 ^ fmt.top), abs_of_nonneg (by linarith : 0 ≤ 2 ^ fmt.top - v), abs_of_nonneg (by linarith : 0 ≤ v - y)] at h2
      have h3 : y = 2 ^ fmt.top - u := by linarith
      have h4 : v - y = 2 ^ fmt.top - v := by linarith
      obtain ⟨n, h5⟩ := hn.even _ hnext h.ne' (by
        rw [abs_sub_comm v (2 ^ fmt.top), abs_of_nonneg (by linarith : 0 ≤ 2 ^ fmt.top - v), abs_of_nonneg (by linarith : 0 ≤ v - y), h4])
      rw [h3, show (2 : ℚ) ^ fmt.top - u - 2 ^ fmt.top = -u by ring, abs_neg, abs_of_pos hupos, ← hlastval] at h5
      have h6 := mul_right_cancel₀ hupos.ne' h5
      have h7 : ((2 ^ fmt.digits - 1 : ℕ) : ℤ) = 2 * n := by exact_mod_cast h6
      obtain ⟨q, hq⟩ : ∃ q, fmt.digits = q + 1 := ⟨fmt.digits - 1, by omega⟩
      rw [hq, pow_succ] at h7
      have : 0 < 2 ^ q := by positivity
      omega
  · intro h
    rcases lt_or_ge v (2 ^ fmt.top - u) with h1 | h1
    · have := nearest_mono (p := fmt.digits) (emin := fmt.least) hdig hv h1.le
      rw [show SP.nearest fmt.digits fmt.least (2 ^ fmt.top - u) = 2 ^ fmt.top - u from nearest_of_representable hlast] at this
      have : fmt.nearest v ≤ 2 ^ fmt.top - u := this
      linarith
    · by_contra hge
      rw [not_lt] at hge
      have h2 := (nearest_nearest (fmt := fmt) hv).nearest _ hlast
      rw [abs_sub_comm v (fmt.nearest v), abs_of_nonneg (by linarith : 0 ≤ v - (2 ^ fmt.top - u)),
        abs_of_nonneg (by linarith : 0 ≤ fmt.nearest v - v)] at h2
      linarith

end Format

/-! ## Operations -/

namespace Ieee
variable {fmt : Format}

theorem rounded_correct (neg : Bool) (exact : ℚ) : Correct neg |exact| (rounded neg exact : Ieee fmt) := by
  unfold rounded
  split
  · rename_i h
    exact .inl ⟨(Format.overflow_iff (abs_nonneg _)).1 h, _, rfl, Format.nearest_nearest (abs_nonneg _)⟩
  · rename_i h
    exact .inr ⟨not_lt.1 fun h' => h ((Format.overflow_iff (abs_nonneg _)).2 h'), rfl⟩

/-- There is one correct result. -/
theorem Correct.unique {neg : Bool} {exact : ℚ} {v w : Ieee fmt} (hv : Correct neg exact v) (hw : Correct neg exact w) : v = w := by
  rcases hv with ⟨h1, m, rfl, h2⟩ | ⟨h1, rfl⟩ <;> rcases hw with ⟨h3, n, rfl, h4⟩ | ⟨h3, rfl⟩
  · congr 1
    exact Subtype.ext (h2.unique h4)
  · exact absurd (h1.trans_le h3) (lt_irrefl _)
  · exact absurd (h3.trans_le h1) (lt_irrefl _)
  · rfl

/-- Sums of finite numbers. -/
theorem plus_correct (s t : Bool) (m n : fmt.Magnitude) :
    (signed s m + signed t n ≠ 0 → Correct (decide (signed s m + signed t n < 0)) |signed s m + signed t n| (plus (fin s m) (fin t n))) ∧
    (signed s m + signed t n = 0 → ∃ z : fmt.Magnitude, z.1 = 0 ∧ plus (fin s m) (fin t n) = fin (s && t) z) := by
  constructor
  · intro h
    show Correct _ _ (if _ then _ else _)
    rw [if_neg h]
    exact rounded_correct _ _
  · intro h
    refine ⟨⟨0, le_rfl, fmt.overflow_pos, nearest_zero⟩, rfl, ?_⟩
    show (if _ then _ else _) = _
    rw [if_pos h]
    rfl

/-- Products of finite numbers. -/
theorem times_correct (s t : Bool) (m n : fmt.Magnitude) : Correct (s ^^ t) (m.1 * n.1) (times (fin s m) (fin t n)) := by
  have h := rounded_correct (fmt := fmt) (s ^^ t) (m.1 * n.1)
  rwa [abs_of_nonneg (mul_nonneg m.2.1 n.2.1)] at h

/-- Products that are not of two finite numbers (6.1 and 7.2 of the standard): NaN iff an operand is NaN or infinity is multiplied by zero,
otherwise infinity with the product of signs. -/
theorem times_special (x y : Ieee fmt) (h : ¬ ∃ s m t n, x = fin s m ∧ y = fin t n) :
    (times x y = nan ↔ x = nan ∨ y = nan ∨ (∃ s t z, x = inf s ∧ y = fin t z ∧ z.1 = 0) ∨ ∃ s t z, x = fin t z ∧ y = inf s ∧ z.1 = 0) ∧
    (times x y ≠ nan → ∃ s t, (x = inf s ∨ ∃ m, x = fin s m) ∧ (y = inf t ∨ ∃ n, y = fin t n) ∧ times x y = inf (s ^^ t)) := by
  rcases x with _ | s | ⟨s, m⟩ <;> rcases y with _ | t | ⟨t, n⟩
  · simp [times]
  · simp [times]
  · simp [times]
  · simp [times]
  · simp [times]
  · by_cases hn : n.1 = 0 <;> simp [times, hn]
  · simp [times]
  · by_cases hm : m.1 = 0 <;> simp [times, hm]
  · exact absurd ⟨s, m, t, n, rfl, rfl⟩ h

/-- Sums that are not of two finite numbers: NaN iff an operand is NaN or they are infinities of different signs, otherwise the infinity. -/
theorem plus_special (x y : Ieee fmt) (h : ¬ ∃ s m t n, x = fin s m ∧ y = fin t n) :
    (plus x y = nan ↔ x = nan ∨ y = nan ∨ ∃ s, x = inf s ∧ y = inf !s) ∧
    (plus x y ≠ nan → ∃ s, (x = inf s ∨ y = inf s) ∧ plus x y = inf s) := by
  rcases x with _ | s | ⟨s, m⟩ <;> rcases y with _ | t | ⟨t, n⟩
  · simp [plus]
  · simp [plus]
  · simp [plus]
  · simp [plus]
  · cases s <;> cases t <;> simp [plus]
  · simp [plus]
  · simp [plus]
  · simp [plus]
  · exact absurd ⟨s, m, t, n, rfl, rfl⟩ h

/-- Numbers given by integers. -/
theorem ofNat_correct (n : ℕ) : Correct false n (ofNat n : Ieee fmt) := by
  have h := rounded_correct (fmt := fmt) false n
  rwa [Nat.abs_cast] at h

/-- Conversion of finite numbers. -/
theorem convert_correct {fmt' : Format} (s : Bool) (m : fmt.Magnitude) : Correct s m.1 (convert (fin s m) : Ieee fmt') := by
  have h := rounded_correct (fmt := fmt') s m.1
  rwa [abs_of_nonneg m.2.1] at h

/-- Sums with products that are not rounded. -/
theorem fma_correct (s t r : Bool) (m n l : fmt.Magnitude) :
    (signed s m * signed t n + signed r l ≠ 0 →
      Correct (decide (signed s m * signed t n + signed r l < 0)) |signed s m * signed t n + signed r l| (fma (fin s m) (fin t n) (fin r l))) ∧
    (signed s m * signed t n + signed r l = 0 → ∃ z : fmt.Magnitude, z.1 = 0 ∧ fma (fin s m) (fin t n) (fin r l) = fin ((s ^^ t) && r) z) := by
  have hp : (if s ^^ t then -(m.1 * n.1) else m.1 * n.1) = signed s m * signed t n := by
    unfold signed
    cases s <;> cases t <;> simp
  have e : fma (fin s m) (fin t n) (fin r l) = if signed s m * signed t n + signed r l = 0 then signedZero ((s ^^ t) && r)
      else rounded (decide (signed s m * signed t n + signed r l < 0)) (signed s m * signed t n + signed r l) := by
    rw [← hp]
    rfl
  constructor
  · intro h
    rw [e, if_neg h]
    exact rounded_correct _ _
  · intro h
    refine ⟨⟨0, le_rfl, fmt.overflow_pos, nearest_zero⟩, rfl, ?_⟩
    rw [e, if_pos h]
    rfl

/-! ## Comparisons -/

/-- A finite number among those with infinities. -/
private def among (q : ℚ) : WithBot (WithTop ℚ) := ((q : WithTop ℚ) : WithBot (WithTop ℚ))

private theorem extended_fin (s : Bool) (m : fmt.Magnitude) : (fin s m).extended = some (among (signed s m)) := rfl

private theorem among_le {q r : ℚ} : among q ≤ among r ↔ q ≤ r := by
  rw [among, among, WithBot.coe_le_coe, WithTop.coe_le_coe]

private theorem among_lt {q r : ℚ} : among q < among r ↔ q < r := by
  rw [among, among, WithBot.coe_lt_coe, WithTop.coe_lt_coe]

private theorem among_inj {q r : ℚ} : among q = among r ↔ q = r := by
  rw [among, among, WithBot.coe_inj, WithTop.coe_inj]

private theorem among_top {q : ℚ} : among q < ⊤ := WithBot.coe_lt_coe.2 (WithTop.coe_lt_top q)

private theorem bot_among {q : ℚ} : ⊥ < among q := WithBot.bot_lt_coe _

private theorem ext_top : (inf false : Ieee fmt).extended = some ⊤ := rfl

private theorem ext_bot : (inf true : Ieee fmt).extended = some ⊥ := rfl

private theorem ext_nan : (nan : Ieee fmt).extended = none := rfl

private theorem exists_two {α : Type} {a b : α} {r : α → α → Prop} : (∃ x y, some a = some x ∧ some b = some y ∧ r x y) ↔ r a b := by
  constructor
  · rintro ⟨_, _, h1, h2, h3⟩
    cases h1
    cases h2
    exact h3
  · exact fun h => ⟨a, b, rfl, rfl, h⟩

private theorem exists_one {α : Type} {a b : α} : (∃ x, some a = some x ∧ some b = some x) ↔ a = b := by
  constructor
  · rintro ⟨_, h1, h2⟩
    cases h1
    cases h2
    rfl
  · rintro rfl
    exact ⟨a, rfl, rfl⟩

theorem atMost_iff (x y : Ieee fmt) : atMost x y = true ↔ ∃ a b, x.extended = some a ∧ y.extended = some b ∧ a ≤ b := by
  rcases x with _ | (_ | _) | ⟨s, m⟩ <;> rcases y with _ | (_ | _) | ⟨t, n⟩
  all_goals simp only [extended_fin, ext_top, ext_bot, ext_nan, exists_two, among_le, atMost, decide_eq_true_eq]
  all_goals simp [bot_among.ne', among_top.ne]

theorem lessThan_iff (x y : Ieee fmt) : lessThan x y = true ↔ ∃ a b, x.extended = some a ∧ y.extended = some b ∧ a < b := by
  rcases x with _ | (_ | _) | ⟨s, m⟩ <;> rcases y with _ | (_ | _) | ⟨t, n⟩
  all_goals simp only [extended_fin, ext_top, ext_bot, ext_nan, exists_two, among_lt, lessThan, decide_eq_true_eq]
  all_goals simp [among_top, bot_among]

theorem same_iff (x y : Ieee fmt) : same x y = true ↔ ∃ a, x.extended = some a ∧ y.extended = some a := by
  rcases x with _ | (_ | _) | ⟨s, m⟩ <;> rcases y with _ | (_ | _) | ⟨t, n⟩
  all_goals simp only [extended_fin, ext_top, ext_bot, ext_nan, exists_one, among_inj, same, decide_eq_true_eq]
  all_goals simp [among_top.ne, among_top.ne', bot_among.ne, bot_among.ne']

end Ieee
end SP
