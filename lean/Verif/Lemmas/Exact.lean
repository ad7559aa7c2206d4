import Verif.Spec.Exact
import Verif.Lemmas.DoubleExact
/-!
# Exact arithmetics carry the computations with integers
-/
namespace SP
open FloatOps

namespace Bounded
variable {k : ℕ}

/-- Penalties. -/
def Nonneg (a : Bounded k) : Prop := 0 ≤ a.1

theorem ofNat_val {n : ℕ} (h : n ≤ 2 ^ k) : (ofNat n : Bounded k).1 = n := clamp_val (by
  rw [abs_of_nonneg (by positivity)]
  exact_mod_cast h)

end Bounded

section
variable {k : ℕ} {D : Type} [FloatOps D] {of : ℤ → D} (hex : ExactOn k of)
include hex
open Bounded

theorem exact_zero : (zero : D) = of 0 := hex.ofNat 0 (by positivity)

theorem exact_hom : Hom (.of fun a : Bounded k => of a.1) Nonneg where
  le a b := hex.le _ _ a.2 b.2
  lt a b := hex.lt _ _ a.2 b.2
  eq a b := hex.eq _ _ a.2 b.2
  zero := by
    show of (zero : Bounded k).1 = zero
    rw [zero_val, exact_zero hex]
  minusOne := by
    show of (clamp k (-1)).1 = minusOne
    rw [clamp_val (small (by norm_num)), hex.minusOne]
  sub a b ha hb := by
    have h1 := a.2
    have h2 := b.2
    have ha : 0 ≤ a.1 := ha
    have hb : 0 ≤ b.1 := hb
    rw [abs_of_nonneg ha] at h1
    rw [abs_of_nonneg hb] at h2
    have h : |a.1 - b.1| ≤ 2 ^ k := by rw [abs_le]; constructor <;> omega
    show of (clamp k (a.1 - b.1)).1 = sub (of a.1) (of b.1)
    rw [clamp_val h, hex.sub _ _ a.2 b.2 h]
  P_zero := by
    show 0 ≤ (zero : Bounded k).1
    rw [zero_val]

theorem exact_penalty {a b w u v : ℕ} (hab : a + 2 * b ≤ k) (hw : w ≤ 2 ^ a) (hu : u ≤ 2 ^ b) (hv : v ≤ 2 ^ b) :
    Nonneg (mul (ofNat w) (sqr (sub (ofNat u) (ofNat v))) : Bounded k) ∧
    of (mul (ofNat w) (sqr (sub (ofNat u) (ofNat v))) : Bounded k).1 = mul (ofNat w) (sqr (sub (ofNat u) (ofNat v))) := by
  have hpow : ∀ {i j : ℕ}, i ≤ j → (2 : ℤ) ^ i ≤ 2 ^ j := fun h => pow_le_pow_right₀ (by norm_num) h
  have hnat : ∀ {n j : ℕ}, n ≤ 2 ^ j → j ≤ k → n ≤ 2 ^ k := fun h h' => h.trans (Nat.pow_le_pow_right (by norm_num) h')
  have habs : ∀ {n j : ℕ}, n ≤ 2 ^ j → j ≤ k → |(n : ℤ)| ≤ 2 ^ k := fun h h' => by
    rw [abs_of_nonneg (by positivity)]
    exact_mod_cast hnat h h'
  have hd : |(u : ℤ) - v| ≤ 2 ^ b := by
    have : (u : ℤ) ≤ 2 ^ b := by exact_mod_cast hu
    have : (v : ℤ) ≤ 2 ^ b := by exact_mod_cast hv
    rw [abs_le]
    constructor <;> omega
  have hs : |((u : ℤ) - v) * (u - v)| ≤ 2 ^ (2 * b) := by
    rw [abs_mul, two_mul, pow_add]
    exact mul_le_mul hd hd (abs_nonneg _) (by positivity)
  have hp : |(w : ℤ) * (((u : ℤ) - v) * (u - v))| ≤ 2 ^ k := by
    refine le_trans ?_ (hpow hab)
    rw [abs_mul, pow_add, abs_of_nonneg (by positivity : (0 : ℤ) ≤ w)]
    exact mul_le_mul (by exact_mod_cast hw) hs (abs_nonneg _) (by positivity)
  have hd' := hd.trans (hpow (show b ≤ k by omega))
  have hs' := hs.trans (hpow (show 2 * b ≤ k by omega))
  have h0 : 0 ≤ ((u : ℤ) - v) * (u - v) := mul_self_nonneg _
  have e1 : (sub (ofNat u) (ofNat v) : Bounded k).1 = (u : ℤ) - v := by
    show (clamp k ((ofNat u : Bounded k).1 - (ofNat v : Bounded k).1)).1 = _
    rw [ofNat_val (hnat hu (by omega)), ofNat_val (hnat hv (by omega)), clamp_val hd']
  have e2 : (sqr (sub (ofNat u) (ofNat v)) : Bounded k).1 = ((u : ℤ) - v) * (u - v) := by
    show (clamp k ((sub (ofNat u) (ofNat v) : Bounded k).1 * (sub (ofNat u) (ofNat v) : Bounded k).1)).1 = _
    rw [e1, clamp_val hs']
  have e3 : (mul (ofNat w) (sqr (sub (ofNat u) (ofNat v))) : Bounded k).1 = (w : ℤ) * (((u : ℤ) - v) * (u - v)) := by
    show (clamp k ((ofNat w : Bounded k).1 * (sqr (sub (ofNat u) (ofNat v)) : Bounded k).1)).1 = _
    rw [e2, ofNat_val (hnat hw (by omega)), clamp_val hp]
  refine ⟨?_, ?_⟩
  · show 0 ≤ (mul (ofNat w) (sqr (sub (ofNat u) (ofNat v))) : Bounded k).1
    rw [e3]
    exact mul_nonneg (by positivity) h0
  · rw [e3, hex.ofNat _ (hnat hw (by omega)), hex.ofNat _ (hnat hu (by omega)), hex.ofNat _ (hnat hv (by omega)),
      hex.sub _ _ (habs hu (by omega)) (habs hv (by omega)) hd', sqr, hex.mul _ _ hd' hd' hs' (.inr rfl),
      hex.mul _ _ (habs hw (by omega)) hs' hp (.inl ⟨by positivity, h0⟩)]

theorem exact_add_zero (a : Bounded k) : add (of a.1) zero = of a.1 := by
  have h : |a.1 + 0| ≤ 2 ^ k := by rw [_root_.add_zero]; exact a.2
  rw [exact_zero hex, hex.add _ _ a.2 (small (by norm_num)) h, _root_.add_zero]

/-- Such an arithmetic carries the computations with integers. -/
theorem exact_carrier : Carrier (fun a : Bounded k => of a.1) Nonneg k where
  toHom := exact_hom hex
  ofNat n hn := by rw [ofNat_val hn, hex.ofNat n hn]
  epsilon n hn := by
    rw [hex.ofNat n hn, hex.epsilon n hn]
    show _ = decide ((ofNat n : Bounded k).1 < (clamp k 1).1)
    rw [ofNat_val hn, clamp_val (small (by norm_num)), decide_eq_decide]
    omega
  penalty a b w u v hab hw hu hv := (exact_hom hex).penalties (fun a _ => exact_add_zero hex a) (fun a _ => LawfulFloat.sub_zero a) (exact_penalty hex hab hw hu hv)
  add_zero a _ := LawfulFloat.add_zero a
  add_zero' a _ := exact_add_zero hex a
  sub_zero a _ := LawfulFloat.sub_zero a

/-- Fewer integers. -/
theorem exact_smaller {j : ℕ} (hj : j ≤ k) : ExactOn j of := by
  have hn : ∀ {n : ℕ}, n ≤ 2 ^ j → n ≤ 2 ^ k := fun h => h.trans (Nat.pow_le_pow_right (by norm_num) hj)
  have hz : ∀ {n : ℤ}, |n| ≤ 2 ^ j → |n| ≤ 2 ^ k := fun h => h.trans (pow_le_pow_right₀ (by norm_num) hj)
  exact ⟨fun n h => hex.ofNat n (hn h), hex.minusOne, fun n h => hex.epsilon n (hn h), fun a b h h' => hex.le a b (hz h) (hz h'),
    fun a b h h' => hex.lt a b (hz h) (hz h'), fun a b h h' => hex.eq a b (hz h) (hz h'),
    fun a b h h' h'' => hex.add a b (hz h) (hz h') (hz h''), fun a b h h' h'' => hex.sub a b (hz h) (hz h') (hz h''),
    fun a b h h' h'' => hex.mul a b (hz h) (hz h') (hz h'')⟩

end

/-- Rational numbers. -/
theorem exactOn_rat (k : ℕ) : ExactOn k (fun n : ℤ => (n : ℚ)) where
  ofNat n _ := by show ((n : ℕ) : ℚ) = ((n : ℤ) : ℚ); simp
  minusOne := by show (-1 : ℚ) = ((-1 : ℤ) : ℚ); norm_num
  epsilon n _ := by
    show decide ((((n : ℤ) : ℚ)) < 1 / 2 ^ 52) = _
    rw [decide_eq_decide]
    constructor
    · intro h
      by_contra h0
      have : (1 : ℚ) ≤ n := by exact_mod_cast Nat.one_le_iff_ne_zero.2 h0
      have : (1 : ℚ) / 2 ^ 52 < 1 := by norm_num
      push_cast at h
      linarith
    · rintro rfl
      norm_num
  le a b _ _ := by show decide ((a : ℚ) ≤ b) = _; rw [decide_eq_decide]; exact Int.cast_le
  lt a b _ _ := by show decide ((a : ℚ) < b) = _; rw [decide_eq_decide]; exact Int.cast_lt
  eq a b _ _ := by show decide ((a : ℚ) = b) = _; rw [decide_eq_decide]; exact Int.cast_inj
  add a b _ _ _ := by show (a : ℚ) + b = _; push_cast; rfl
  sub a b _ _ _ := by show (a : ℚ) - b = _; push_cast; rfl
  mul a b _ _ _ _ := by show (a : ℚ) * b = _; push_cast; rfl

/-- Integers. -/
theorem exactOn_int (k : ℕ) : ExactOn k (fun n : ℤ => n) where
  ofNat _ _ := rfl
  minusOne := rfl
  epsilon n _ := by
    show decide ((n : ℤ) < 1) = _
    rw [decide_eq_decide]
    omega
  le _ _ _ _ := rfl
  lt _ _ _ _ := rfl
  eq _ _ _ _ := rfl
  add _ _ _ _ _ := rfl
  sub _ _ _ _ _ := rfl
  mul _ _ _ _ _ _ := rfl

namespace Ieee
variable {fmt : Format}

/-- The number nearest to an integer. -/
def ofInt (n : ℤ) : Ieee fmt := rounded (decide ((n : ℚ) < 0)) n

theorem ofInt_eq {k : ℕ} (hk : k ≤ fmt.digits) {n : ℤ} (h : |n| ≤ 2 ^ k) :
    ofInt n = of (.refl fmt) (fmt.rounding.round n) ∧ (fmt.rounding.round n).1 = n :=
  ⟨(rounded_int (.refl fmt (hk.trans_lt fmt.digits_lt)) n h le_rfl).1, Format.round_exact hk h⟩

/-- Sums of integers. -/
theorem add_of {k : ℕ} (hk : k < fmt.top) {a b : fmt.Num} {m n : ℤ} (ha : a.1 = m) (hb : b.1 = n) (h : |m + n| ≤ 2 ^ k) :
    add (of (.refl fmt) a) (of (.refl fmt) b) = ofInt (m + n) := by
  rw [plus_signed]
  have hv : (((m + n : ℤ)) : ℚ) = a.1 + b.1 := by rw [ha, hb]; push_cast; ring
  unfold ofInt
  rw [hv]
  by_cases hz : a.1 + b.1 = 0
  · rw [if_pos hz, hz]
    have : (decide (a.1 < 0) && decide (b.1 < 0)) = false := by
      rcases lt_or_ge a.1 0 with h | h
      · rw [decide_eq_false (not_lt.2 (by linarith : 0 ≤ b.1)), Bool.and_false]
      · rw [decide_eq_false (not_lt.2 h), Bool.false_and]
    rw [this, ← zero_eq']
    show ofNat 0 = _
    rw [decide_eq_false (lt_irrefl _)]
    show rounded false _ = _
    rw [Nat.cast_zero]
  · rw [if_neg hz]
where
  zero_eq' : (zero : Ieee fmt) = signedZero false := by
    show rounded false _ = _
    have h : fmt.nearest |((0 : ℕ) : ℚ)| = 0 := by
      rw [Nat.cast_zero, abs_zero]
      exact nearest_zero
    unfold rounded
    rw [dif_pos (by rw [h]; exact fmt.overflow_pos)]
    unfold signedZero
    congr 1
    exact Subtype.ext h

/-- Numbers of a format are exact for integers that have not more digits. -/
theorem exactOn (fmt : Format) {k : ℕ} (hk : k ≤ fmt.digits) : ExactOn k (ofInt : ℤ → Ieee fmt) where
  ofNat n _ := by
    show rounded false _ = rounded _ _
    rw [decide_eq_false (not_lt.2 (by positivity))]
    push_cast
    rfl
  minusOne := by
    show rounded true 1 = rounded (decide (((-1 : ℤ) : ℚ) < 0)) ((-1 : ℤ) : ℚ)
    rw [show decide (((-1 : ℤ) : ℚ) < 0) = true by norm_num, ← rounded_abs (x := ((-1 : ℤ) : ℚ)), show |((-1 : ℤ) : ℚ)| = 1 by norm_num]
  epsilon n hn := by
    have hn : |(n : ℤ)| ≤ 2 ^ k := by rw [abs_of_nonneg (by positivity)]; exact_mod_cast hn
    obtain ⟨e1, e2⟩ := ofInt_eq hk hn
    obtain ⟨e, he, he'⟩ := epsilon_eq (fmt' := fmt)
    rw [e1, he]
    show lessThan (fin _ _) (fin _ _) = _
    simp only [lessThan, signed_abs]
    rw [show signed false e = 2 ^ (1 - fmt.digits : ℤ) from he', e2, decide_eq_decide]
    push_cast
    exact lt_eps fmt n
  le a b ha hb := by
    obtain ⟨e1, e2⟩ := ofInt_eq hk ha
    obtain ⟨e3, e4⟩ := ofInt_eq hk hb
    rw [e1, e3]
    show atMost (fin _ _) (fin _ _) = _
    simp only [atMost, signed_abs]
    rw [e2, e4, decide_eq_decide]
    exact Int.cast_le
  lt a b ha hb := by
    obtain ⟨e1, e2⟩ := ofInt_eq hk ha
    obtain ⟨e3, e4⟩ := ofInt_eq hk hb
    rw [e1, e3]
    show lessThan (fin _ _) (fin _ _) = _
    simp only [lessThan, signed_abs]
    rw [e2, e4, decide_eq_decide]
    exact Int.cast_lt
  eq a b ha hb := by
    obtain ⟨e1, e2⟩ := ofInt_eq hk ha
    obtain ⟨e3, e4⟩ := ofInt_eq hk hb
    rw [e1, e3]
    show same (fin _ _) (fin _ _) = _
    simp only [same, signed_abs]
    rw [e2, e4, decide_eq_decide]
    exact Int.cast_inj
  add a b ha hb h := by
    obtain ⟨e1, e2⟩ := ofInt_eq hk ha
    obtain ⟨e3, e4⟩ := ofInt_eq hk hb
    rw [e1, e3]
    exact add_of (hk.trans_lt fmt.digits_lt) e2 e4 h
  sub a b ha hb h := by
    obtain ⟨e1, e2⟩ := ofInt_eq hk ha
    obtain ⟨e3, e4⟩ := ofInt_eq hk hb
    obtain ⟨e5, e6⟩ := ofInt_eq hk h
    rw [e1, e3, e5, ← sub_of (.refl fmt (hk.trans_lt fmt.digits_lt)) e2 e4 h]
    congr 1
    show fmt.rounding.round (_ - _) = _
    rw [e2, e4]
    push_cast
    rfl
  mul a b ha hb h hs := by
    obtain ⟨e1, e2⟩ := ofInt_eq hk ha
    obtain ⟨e3, e4⟩ := ofInt_eq hk hb
    obtain ⟨e5, e6⟩ := ofInt_eq hk h
    rw [e1, e3, e5, ← mul_of (.refl fmt (hk.trans_lt fmt.digits_lt)) e2 e4 (hs.imp_right fun h => by rw [h]) h]
    congr 1
    show fmt.rounding.round (_ * _) = _
    rw [e2, e4]
    push_cast
    rfl

/-- Conversion of integers. -/
theorem convert_ofInt {fmt' : Format} {k : ℕ} (hk : k ≤ fmt.digits) {n : ℤ} (h : |n| ≤ 2 ^ k) :
    (convert (ofInt n : Ieee fmt) : Ieee fmt') = ofInt n := by
  obtain ⟨e1, e2⟩ := ofInt_eq hk h
  rw [e1]
  show rounded (decide _) (magnitudeOf _ _).1 = rounded _ _
  rw [magnitudeOf_val, rounded_abs, e2]

end Ieee

/-- An integer that cuts integers as the given number does. -/
theorem Bounded.cut (k : ℕ) : Cut (fun a : Bounded k => (a.1 : ℚ)) fun _ => True := by
  intro t
  by_cases h : ((-2 ^ k : ℤ) : ℚ) ≤ t
  · right
    refine ⟨clamp k ⌊t⌋, fun a _ ha => ?_, fun a ha => ?_⟩
    · have h1 : (a.1 : ℚ) ≤ t := of_decide_eq_true ha
      have h2 := clamp_mono (k := k) (Int.le_floor.2 h1)
      rw [clamp_val a.2] at h2
      exact decide_eq_true h2
    · have h1 : a.1 ≤ (clamp k ⌊t⌋).1 := of_decide_eq_true ha
      have h2 : (clamp k ⌊t⌋).1 ≤ ⌊t⌋ := max_le (Int.le_floor.2 h) (min_le_left _ _)
      exact decide_eq_true (Int.le_floor.1 (h1.trans h2))
  · left
    intro a _
    refine decide_eq_false fun ha => h (le_trans ?_ ha)
    exact Int.cast_le.2 (abs_le.1 a.2).1

end SP
