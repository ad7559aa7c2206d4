import Verif.Lemmas.TransferMain
import Verif.Lemmas.Double
/-!
# Numbers of IEEE 754 and the lawful arithmetic

On integers up to `2^k` both arithmetics do the same.
-/
namespace SP
open FloatOps

/-- Integers up to `2^k` are rounded in the same way in both formats. -/
structure Format.Agree (fmt fmt' : Format) (k : ℕ) : Prop extends fmt.Within fmt' where
  lt : k < fmt.top
  same : ∀ n : ℕ, n ≤ 2 ^ k → fmt'.nearest n = fmt.nearest n

namespace Format
variable {fmt fmt' : Format} {k : ℕ}

theorem Agree.refl (fmt : Format) (h : k < fmt.top) : fmt.Agree fmt k := ⟨.refl fmt, h, fun _ _ => rfl⟩

/-- Integers with few digits are not rounded. -/
theorem Within.agree (h : fmt.Within fmt') : fmt.Agree fmt' fmt.digits :=
  ⟨h, fmt.digits_lt, fun n hn => by
    rw [nearest_exact hn, nearest_exact (hn.trans (Nat.pow_le_pow_right (by norm_num) h.digits))]⟩

theorem Agree.smaller (h : fmt.Agree fmt' k) {j : ℕ} (hj : j ≤ k) : fmt.Agree fmt' j :=
  ⟨h.toWithin, hj.trans_lt h.lt, fun n hn => h.same n (hn.trans (Nat.pow_le_pow_right (by norm_num) hj))⟩

end Format

namespace Ieee
variable {fmt fmt' : Format} (wi : fmt.Within fmt')

/-- The absolute value of a number of a smaller format. -/
def magnitudeOf (x : fmt.Num) : fmt'.Magnitude :=
  ⟨|x.1|, abs_nonneg _, (x.le.trans_lt fmt.largest_lt).trans_le wi.overflow, wi.nearest (by
    have h := fmt.abs_near x.1
    rw [x.near] at h
    exact h.symm)⟩

/-- The number with this value. -/
def of (x : fmt.Num) : Ieee fmt' := fin (decide (x.1 < 0)) (magnitudeOf wi x)

theorem of_eq {x : fmt.Num} {s : Bool} {m : fmt'.Magnitude} (hs : s = decide (x.1 < 0)) (hm : m.1 = |x.1|) : fin s m = of wi x := by
  unfold of
  rw [hs, show m = magnitudeOf wi x from Subtype.ext hm]

@[simp] theorem magnitudeOf_val (x : fmt.Num) : (magnitudeOf wi x).1 = |x.1| := rfl

theorem signed_abs (x : fmt.Num) : signed (decide (x.1 < 0)) (magnitudeOf wi x) = x.1 := by
  unfold signed
  rw [magnitudeOf_val]
  rcases lt_or_ge x.1 0 with h | h
  · rw [decide_eq_true h, if_pos rfl, abs_of_neg h, neg_neg]
  · rw [decide_eq_false (not_lt.2 h), if_neg (by simp), abs_of_nonneg h]

theorem signed_not (x : fmt.Num) : signed (!decide (x.1 < 0)) (magnitudeOf wi x) = -x.1 := by
  unfold signed
  rw [magnitudeOf_val]
  rcases lt_or_ge x.1 0 with h | h
  · rw [decide_eq_true h, if_neg (by simp), abs_of_neg h]
  · rw [decide_eq_false (not_lt.2 h), if_pos (by simp), abs_of_nonneg h]

theorem rounded_abs (s : Bool) (x : ℚ) : (rounded s |x| : Ieee fmt') = rounded s x := by
  unfold rounded
  simp only [abs_abs]

theorem signedZero_of {x : fmt.Num} (h : x.1 = 0) : signedZero false = of wi x :=
  of_eq wi (by rw [h]; rfl) (by rw [h, abs_zero])

theorem of_zero : of wi (zero : fmt.Num) = zero := by
  have h0 : fmt'.nearest |((0 : ℕ) : ℚ)| = 0 := by
    rw [Nat.cast_zero, abs_zero]
    exact nearest_zero
  rw [← signedZero_of wi (Rounding.zero_val _)]
  show _ = rounded false _
  unfold rounded signedZero
  rw [dif_pos (by rw [h0]; exact fmt'.overflow_pos)]
  congr 1
  apply Subtype.ext
  exact h0.symm

theorem opposite_signed (a b : fmt.Num) : sub (of wi a) (of wi b) =
    if a.1 + -b.1 = 0 then signedZero (decide (a.1 < 0) && !decide (b.1 < 0)) else rounded (decide (a.1 + -b.1 < 0)) (a.1 + -b.1) := by
  have : sub (of wi a) (of wi b) =
      if signed (decide (a.1 < 0)) (magnitudeOf wi a) + signed (!decide (b.1 < 0)) (magnitudeOf wi b) = 0 then
      signedZero (decide (a.1 < 0) && !decide (b.1 < 0))
      else rounded (decide (signed (decide (a.1 < 0)) (magnitudeOf wi a) + signed (!decide (b.1 < 0)) (magnitudeOf wi b) < 0))
        (signed (decide (a.1 < 0)) (magnitudeOf wi a) + signed (!decide (b.1 < 0)) (magnitudeOf wi b)) := rfl
  rw [this, signed_abs, signed_not]

theorem plus_signed (a b : fmt.Num) : add (of wi a) (of wi b) =
    if a.1 + b.1 = 0 then signedZero (decide (a.1 < 0) && decide (b.1 < 0)) else rounded (decide (a.1 + b.1 < 0)) (a.1 + b.1) := by
  have : add (of wi a) (of wi b) =
      if signed (decide (a.1 < 0)) (magnitudeOf wi a) + signed (decide (b.1 < 0)) (magnitudeOf wi b) = 0 then
      signedZero (decide (a.1 < 0) && decide (b.1 < 0))
      else rounded (decide (signed (decide (a.1 < 0)) (magnitudeOf wi a) + signed (decide (b.1 < 0)) (magnitudeOf wi b) < 0))
        (signed (decide (a.1 < 0)) (magnitudeOf wi a) + signed (decide (b.1 < 0)) (magnitudeOf wi b)) := rfl
  rw [this, signed_abs, signed_abs]

variable {k : ℕ} (ag : fmt.Agree fmt' k)

/-- Rounding of an integer that is not too large. -/
theorem rounded_int (n : ℤ) {j : ℕ} (h : |n| ≤ 2 ^ j) (hk : j ≤ k) :
    rounded (decide ((n : ℚ) < 0)) n = of ag.toWithin (fmt.rounding.round n) ∧ (∃ m : ℤ, (fmt.rounding.round n).1 = m ∧ |m| ≤ 2 ^ j) := by
  replace ag := ag.smaller hk
  have h : |(n : ℚ)| ≤ 2 ^ j := by rw [← Int.cast_abs]; exact_mod_cast h
  have hnat : ((n.natAbs : ℕ) : ℚ) = |(n : ℚ)| := by rw [Nat.cast_natAbs, Int.cast_abs]
  have hsame : fmt'.nearest |(n : ℚ)| = fmt.nearest |(n : ℚ)| := by
    rw [← hnat]
    refine ag.same _ ?_
    rw [← hnat] at h
    exact_mod_cast h
  have hle : fmt.nearest |(n : ℚ)| ≤ 2 ^ j := Format.nearest_le (abs_nonneg _) h
  have habs' := fmt.abs_near (n : ℚ)
  have hval : (fmt.rounding.round n).1 = fmt.near n :=
    Format.toFinite_eq (by rw [habs']; exact hle.trans (fmt.pow_le_largest ag.lt))
  have habs : |(fmt.rounding.round n).1| = fmt.nearest |(n : ℚ)| := by rw [hval, habs']
  have hlt : fmt'.nearest |(n : ℚ)| < fmt'.overflow := by
    rw [hsame]
    exact ((hle.trans (fmt.pow_le_largest ag.lt)).trans_lt fmt.largest_lt).trans_le ag.overflow
  have hint : ∃ m : ℕ, fmt.nearest |(n : ℚ)| = m := by
    rw [← hnat]
    exact Format.nearest_int _
  have hsign : decide ((n : ℚ) < 0) = decide ((fmt.rounding.round n).1 < 0) := by
    rw [hval]
    rcases lt_or_ge (n : ℚ) 0 with hn | hn
    · have hn' : n ≤ -1 := by
        have : n < 0 := by exact_mod_cast hn
        omega
      have h1 : (1 : ℚ) ≤ -n := by
        have : ((n : ℤ) : ℚ) ≤ ((-1 : ℤ) : ℚ) := by exact_mod_cast hn'
        push_cast at this
        linarith
      have h2 : fmt.near (n : ℚ) = - fmt.nearest (-n) := toNearest_nonpos hn.le
      have h3 := Format.one_le_nearest (fmt := fmt) h1
      rw [decide_eq_true hn, eq_comm, decide_eq_true_eq, h2]
      linarith
    · have h2 : fmt.near (n : ℚ) = fmt.nearest n := toNearest_nonneg hn
      rw [decide_eq_false (not_lt.2 hn), eq_comm, decide_eq_false_iff_not, h2, not_lt]
      exact nearest_nonneg hn
  refine ⟨?_, ?_⟩
  · unfold rounded
    rw [dif_pos hlt]
    exact of_eq _ hsign (hsame.trans habs.symm)
  · obtain ⟨m, hm⟩ := hint
    rw [hm] at hle
    rw [← habs] at hm
    have hle : (m : ℤ) ≤ 2 ^ j := by exact_mod_cast hle
    rcases abs_choice (fmt.rounding.round n).1 with h1 | h1
    · exact ⟨m, by rw [← h1, hm]; simp, by rwa [abs_of_nonneg (by positivity)]⟩
    · exact ⟨-m, by rw [h1] at hm; push_cast; linarith, by rwa [abs_neg, abs_of_nonneg (by positivity)]⟩

/-- Differences of integers. -/
theorem sub_of {a b : fmt.Num} {m n : ℤ} (ha : a.1 = m) (hb : b.1 = n) (h : |m - n| ≤ 2 ^ k) :
    of ag.toWithin (sub a b) = sub (of ag.toWithin a) (of ag.toWithin b) := by
  rw [opposite_signed]
  have hv : (((m - n : ℤ)) : ℚ) = a.1 + -b.1 := by rw [ha, hb]; push_cast; ring
  by_cases hz : a.1 + -b.1 = 0
  · rw [if_pos hz]
    have hab : a.1 = b.1 := by linarith
    have : (sub a b).1 = 0 := by
      show fmt.rounding.rnd (a.1 - b.1) = 0
      rw [hab, sub_self, fmt.rounding.zero']
    rw [← signedZero_of _ this, hab]
    cases decide (b.1 < 0) <;> rfl
  · rw [if_neg hz]
    have := (rounded_int ag (m - n) h le_rfl).1
    rw [hv] at this
    rw [this, ← sub_eq_add_neg]
    rfl

/-- Sums with zero. -/
theorem add_zero_of (a : fmt.Num) {m : ℤ} (ha : a.1 = m) (h : |m| ≤ 2 ^ k) :
    add (of ag.toWithin a) zero = of ag.toWithin a := by
  rw [← of_zero ag.toWithin, plus_signed, Rounding.zero_val, _root_.add_zero]
  by_cases hz : a.1 = 0
  · rw [if_pos hz]
    rw [hz, ← signedZero_of _ hz]
    rfl
  · rw [if_neg hz, ha, (rounded_int ag m h le_rfl).1]
    congr 1
    apply Subtype.ext
    show fmt.rounding.rnd m = a.1
    rw [← ha, a.2]

/-- Products of integers. -/
theorem mul_of {a b : fmt.Num} {m n : ℤ} (ha : a.1 = m) (hb : b.1 = n) (hs : (0 ≤ m ∧ 0 ≤ n) ∨ a = b) (h : |m * n| ≤ 2 ^ k) :
    of ag.toWithin (mul a b) = mul (of ag.toWithin a) (of ag.toWithin b) := by
  show _ = rounded (decide (a.1 < 0) ^^ decide (b.1 < 0)) (|a.1| * |b.1|)
  have hv : (((m * n : ℤ)) : ℚ) = a.1 * b.1 := by rw [ha, hb]; push_cast; ring
  have hx : (decide (a.1 < 0) ^^ decide (b.1 < 0)) = decide (((m * n : ℤ) : ℚ) < 0) := by
    rcases hs with ⟨h1, h2⟩ | rfl
    · have h1' : ¬ a.1 < 0 := by rw [ha, not_lt]; exact_mod_cast h1
      have h2' : ¬ b.1 < 0 := by rw [hb, not_lt]; exact_mod_cast h2
      have h3 : ¬ ((m * n : ℤ) : ℚ) < 0 := by rw [not_lt]; exact_mod_cast mul_nonneg h1 h2
      simp only [h1', h2', h3]
      rfl
    · rw [Bool.xor_self, eq_comm, decide_eq_false_iff_not, not_lt, hv]
      exact mul_self_nonneg _
  simp only [hx]
  rw [← abs_mul, ← hv, rounded_abs, (rounded_int ag (m * n) h le_rfl).1, hv]
  rfl

/-- Nonnegative integers up to `2^k`. -/
def Small (k : ℕ) (x : fmt.Num) : Prop := ∃ n : ℕ, x.1 = n ∧ n ≤ 2 ^ k

theorem small_of {x : fmt.Num} {m : ℤ} (hm : x.1 = m) (h0 : 0 ≤ x.1) {j : ℕ} (h : |m| ≤ 2 ^ j) : Small j x := by
  rw [hm] at h0
  have h0' : 0 ≤ m := by exact_mod_cast h0
  obtain ⟨n, rfl⟩ := Int.eq_ofNat_of_zero_le h0'
  rw [abs_of_nonneg h0'] at h
  exact ⟨n, by rw [hm]; simp, by exact_mod_cast h⟩

include ag in
theorem ofNat_of {n j : ℕ} (hn : n ≤ 2 ^ j) (hj : j ≤ k) :
    of ag.toWithin (ofNat n) = ofNat n ∧ Small j (ofNat n : fmt.Num) := by
  have hn : |(n : ℤ)| ≤ 2 ^ j := by rw [abs_of_nonneg (by positivity)]; exact_mod_cast hn
  have hneg : decide ((((n : ℤ)) : ℚ) < 0) = false := by
    rw [decide_eq_false_iff_not, not_lt]
    positivity
  obtain ⟨h1, m, hm, h3⟩ := rounded_int ag n hn hj
  have hr : (fmt.rounding.round (((n : ℤ)) : ℚ)) = (ofNat n : fmt.Num) := by
    show _ = fmt.rounding.round ((n : ℕ) : ℚ)
    push_cast
    rfl
  rw [hr] at h1 hm
  refine ⟨?_, small_of hm (fmt.rounding.rnd_nonneg (Nat.cast_nonneg _)) h3⟩
  rw [← h1, hneg]
  show _ = rounded false _
  push_cast
  rfl

/-- Everything computed for a penalty. -/
theorem penalty_of {a b w u v : ℕ} (hab : a + 2 * b ≤ k) (hw : w ≤ 2 ^ a) (hu : u ≤ 2 ^ b) (hv : v ≤ 2 ^ b) :
    Small k (mul (ofNat w) (sqr (sub (ofNat u) (ofNat v))) : fmt.Num) ∧
    of ag.toWithin (mul (ofNat w) (sqr (sub (ofNat u) (ofNat v)))) =
      mul (ofNat w) (sqr (sub (ofNat u) (ofNat v))) := by
  obtain ⟨hw, W, hW, hW'⟩ := ofNat_of ag hw (by omega)
  obtain ⟨hu, U, hU, hU'⟩ := ofNat_of ag hu (by omega)
  obtain ⟨hv, V, hV, hV'⟩ := ofNat_of ag hv (by omega)
  set w' : fmt.Num := ofNat w
  set u' : fmt.Num := ofNat u
  set v' : fmt.Num := ofNat v
  have hd : |(U : ℤ) - V| ≤ 2 ^ b := by
    have : (U : ℤ) ≤ 2 ^ b := by exact_mod_cast hU'
    have : (V : ℤ) ≤ 2 ^ b := by exact_mod_cast hV'
    rw [abs_le]
    constructor <;> omega
  have hpow : ∀ {i j : ℕ}, i ≤ j → (2 : ℤ) ^ i ≤ 2 ^ j := fun h => pow_le_pow_right₀ (by norm_num) h
  have hsub := sub_of ag (a := u') (b := v') (m := U) (n := V) (by rw [hU]; simp) (by rw [hV]; simp) (hd.trans (hpow (by omega)))
  obtain ⟨-, D, hD, hDb⟩ := rounded_int ag ((U : ℤ) - V) hd (by omega)
  have hr : fmt.rounding.round (((U : ℤ) - V : ℤ) : ℚ) = sub u' v' := by
    show _ = fmt.rounding.round (u'.1 - v'.1)
    rw [hU, hV]
    push_cast
    rfl
  rw [hr] at hD
  set d : fmt.Num := sub u' v'
  have hs : |D * D| ≤ 2 ^ (2 * b) := by
    rw [abs_mul, two_mul, pow_add]
    exact mul_le_mul hDb hDb (abs_nonneg _) (by positivity)
  have hsqr := mul_of ag hD hD (.inr rfl) (hs.trans (hpow (by omega)))
  obtain ⟨-, S, hS, hS'⟩ := rounded_int ag (D * D) hs (by omega)
  have hr : fmt.rounding.round ((D * D : ℤ) : ℚ) = mul d d := by
    show _ = fmt.rounding.round (d.1 * d.1)
    rw [hD]
    push_cast
    rfl
  rw [hr] at hS
  have hS0 : 0 ≤ S := by
    have h0 : 0 ≤ (mul d d).1 := fmt.rounding.rnd_nonneg (mul_self_nonneg _)
    rw [hS] at h0
    exact_mod_cast h0
  have hp : |(W : ℤ) * S| ≤ 2 ^ k := by
    refine le_trans ?_ (hpow hab)
    rw [abs_mul, pow_add, abs_of_nonneg (by positivity : (0 : ℤ) ≤ W)]
    exact mul_le_mul (by exact_mod_cast hW') hS' (abs_nonneg _) (by positivity)
  have hmul := mul_of ag (a := w') (b := mul d d) (m := W) (by rw [hW]; simp) hS (.inl ⟨by positivity, hS0⟩) hp
  obtain ⟨-, Q, hQ, hQ'⟩ := rounded_int ag ((W : ℤ) * S) hp le_rfl
  have hr : fmt.rounding.round (((W : ℤ) * S : ℤ) : ℚ) = mul w' (mul d d) := by
    show _ = fmt.rounding.round (w'.1 * (mul d d).1)
    rw [hS, hW]
    push_cast
    rfl
  rw [hr] at hQ
  refine ⟨small_of hQ (fmt.rounding.rnd_nonneg ?_) hQ', ?_⟩
  · rw [hW]
    exact mul_nonneg (Nat.cast_nonneg _) (by show 0 ≤ (mul d d).1; rw [hS]; exact_mod_cast hS0)
  · unfold sqr
    rw [hmul, hsqr, hsub, hu, hv, hw]

theorem epsilon_eq : ∃ m : fmt'.Magnitude, (epsilon : Ieee fmt') = fin false m ∧ m.1 = 2 ^ (1 - fmt'.digits : ℤ) := by
  have hpos := two_zpow_pos (1 - fmt'.digits : ℤ)
  have h : fmt'.nearest |(2 : ℚ) ^ (1 - fmt'.digits : ℤ)| = 2 ^ (1 - fmt'.digits : ℤ) := by
    rw [abs_of_pos hpos]
    exact nearest_pow fmt'.digits_pos fmt'.least_le
  have hlt : fmt'.nearest |(2 : ℚ) ^ (1 - fmt'.digits : ℤ)| < fmt'.overflow := by
    rw [h]
    unfold Format.overflow
    rw [← zpow_natCast]
    exact zpow_lt_zpow_right₀ (by norm_num) (by have := fmt'.digits_pos; have := fmt'.digits_lt; omega)
  refine ⟨⟨_, nearest_nonneg (abs_nonneg _), hlt, nearest_idem fmt'.digits_pos (abs_nonneg _)⟩, ?_, h⟩
  show rounded false _ = _
  unfold rounded
  rw [dif_pos hlt]
  rfl

theorem lt_eps (fmt : Format) (n : ℕ) : (n : ℚ) < 2 ^ (1 - fmt.digits : ℤ) ↔ n = 0 := by
  constructor
  · intro h
    have h1 : (2 : ℚ) ^ (1 - fmt.digits : ℤ) ≤ 2 ^ (0 : ℤ) := zpow_le_zpow_right₀ (by norm_num) (by have := fmt.digits_pos; omega)
    rw [zpow_zero] at h1
    have : (n : ℚ) < 1 := h.trans_le h1
    have : n < 1 := by exact_mod_cast this
    omega
  · rintro rfl
    rw [Nat.cast_zero]
    exact two_zpow_pos _

include ag in
theorem add_zero_small (a : fmt.Num) (h : Small k a) : add (of ag.toWithin a) zero = of ag.toWithin a := by
  obtain ⟨m, hm, ha⟩ := h
  exact add_zero_of ag a (m := m) (by rw [hm]; simp) (by rw [abs_of_nonneg (by positivity)]; exact_mod_cast ha)

/-- Comparisons and differences are those of the lawful arithmetic. -/
theorem hom : Hom (.of (of ag.toWithin)) (Small k) where
  le a b := by
    show atMost (fin _ _) (fin _ _) = decide _
    simp only [atMost, signed_abs]
  lt a b := by
    show lessThan (fin _ _) (fin _ _) = decide _
    simp only [lessThan, signed_abs]
  eq a b := by
    show same (fin _ _) (fin _ _) = _
    simp only [same, signed_abs, eq, decide_eq_decide]
    exact ⟨Subtype.ext, fun h => h ▸ rfl⟩
  zero := of_zero _
  minusOne := by
    obtain ⟨h, -⟩ := rounded_int ag (-1) (j := 0) (by norm_num) (by omega)
    rw [← rounded_abs] at h
    push_cast at h
    rw [show decide ((-1 : ℚ) < 0) = true by norm_num, show |(-1 : ℚ)| = 1 by norm_num] at h
    exact h.symm
  sub a b := by
    rintro ⟨m, hm, ha⟩ ⟨n, hn, hb⟩
    refine sub_of ag (m := m) (n := n) (by rw [hm]; simp) (by rw [hn]; simp) ?_
    have : (m : ℤ) ≤ 2 ^ k := by exact_mod_cast ha
    have : (n : ℤ) ≤ 2 ^ k := by exact_mod_cast hb
    rw [abs_le]
    constructor <;> omega
  P_zero := ⟨0, by rw [Rounding.zero_val]; simp, by positivity⟩

/-- Numbers of IEEE 754 carry the computations of the lawful arithmetic. -/
theorem carrier : Carrier (of ag.toWithin) (Small k) k where
  toHom := hom ag
  ofNat n hn := (ofNat_of ag hn le_rfl).1
  epsilon n hn := by
    obtain ⟨h1, m, hm, -⟩ := ofNat_of ag hn le_rfl
    obtain ⟨e, he, he'⟩ := epsilon_eq (fmt' := fmt')
    rw [← h1, he]
    show lessThan (fin _ _) (fin _ _) = decide (_ < (2 : ℚ) ^ (1 - fmt.digits : ℤ))
    simp only [lessThan, signed_abs]
    rw [show signed false e = 2 ^ (1 - fmt'.digits : ℤ) from he', hm, decide_eq_decide, lt_eps, lt_eps]
  penalty a b w u v hab hw hu hv := (hom ag).penalties (add_zero_small ag) (fun a _ => LawfulFloat.sub_zero a) (penalty_of ag hab hw hu hv)
  add_zero a _ := LawfulFloat.add_zero a
  add_zero' := add_zero_small ag
  sub_zero a _ := LawfulFloat.sub_zero a

end Ieee
end SP
