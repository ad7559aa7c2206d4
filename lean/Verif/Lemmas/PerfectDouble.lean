import Verif.Lemmas.Perfect
import Verif.Lemmas.NearDevice
/-!
# Perfect labelings in arithmetic with rounding
-/
namespace SP
open FloatOps

namespace Format
variable {fmt : Format}

/-- Differences of intensities are exact, and errors of the other two operations are small. -/
theorem penalty_bounds {k : ℕ} (hk : k < fmt.top) (hd : 24 ≤ fmt.digits) {a w u v : ℕ} (ha : a + 32 ≤ k) (hw : w ≤ 2 ^ a) (hu : u ≤ 2 ^ 16) (hv : v ≤ 2 ^ 16) :
    (ofNat w : fmt.Num).1 * ((1 - fmt.unit) ^ 2 * ((u : ℚ) - v) ^ 2) ≤ (mul (ofNat w) (sqr (sub (ofNat u) (ofNat v))) : fmt.Num).1 ∧
    (mul (ofNat w) (sqr (sub (ofNat u) (ofNat v))) : fmt.Num).1 ≤ (ofNat w : fmt.Num).1 * ((1 + fmt.unit) ^ 2 * ((u : ℚ) - v) ^ 2) := by
  have hpow : ∀ {i j : ℕ}, i ≤ j → (2 : ℤ) ^ i ≤ 2 ^ j := fun h => pow_le_pow_right₀ (by norm_num) h
  have e1 : (ofNat u : fmt.Num).1 = ((u : ℤ) : ℚ) := ofNat_exact (k := 16) (by omega) hu
  have e2 : (ofNat v : fmt.Num).1 = ((v : ℤ) : ℚ) := ofNat_exact (k := 16) (by omega) hv
  have hx : |(u : ℤ) - v| ≤ 2 ^ 16 := by
    rw [abs_le]
    constructor <;> omega
  have e3 := sub_exact (fmt := fmt) (k := 16) (by omega) e1 e2 hx
  have hxx : |((u : ℤ) - v) * (u - v)| ≤ 2 ^ 32 := by
    rw [abs_mul]
    exact mul_le_mul hx hx (abs_nonneg _) (by norm_num)
  obtain ⟨S, eS, S1, hS⟩ := mul_error (fmt := fmt) (k := 32) (by omega) (by rw [e3]) (by rw [e3]) hxx
  obtain ⟨W, eW, W0, W1, hW⟩ := ofNat_error (fmt := fmt) (k := a) (by omega) hw
  have hWS : |W * S| ≤ 2 ^ k := by
    refine le_trans ?_ (hpow ha)
    rw [abs_mul, pow_add, abs_of_nonneg W0]
    exact mul_le_mul W1 S1 (abs_nonneg _) (by positivity)
  obtain ⟨p, ep, p1, hp⟩ := mul_error hk eW eS hWS
  have ep' : (mul (ofNat w) (sqr (sub (ofNat u) (ofNat v))) : fmt.Num).1 = p := ep
  rw [ep', eW]
  have hu0 := unit_nonneg (fmt := fmt)
  have hu1 : fmt.unit ≤ 1 := by
    unfold unit
    rw [div_le_one (by positivity)]
    exact one_le_pow₀ (by norm_num)
  have hW0 : (0 : ℚ) ≤ W := by exact_mod_cast W0
  push_cast at hS
  have hsq : ((u : ℚ) - v) * (u - v) = (u - v) ^ 2 := (sq _).symm
  have hsq0 : 0 ≤ ((u : ℚ) - v) ^ 2 := sq_nonneg _
  rw [hsq, abs_of_nonneg hsq0] at hS
  generalize ((u : ℚ) - v) ^ 2 = X at *
  generalize fmt.unit = ε at *
  obtain ⟨s1, s2⟩ := abs_le.1 hS
  have hS0 : (0 : ℚ) ≤ S := by nlinarith
  have hWS0 : (0 : ℚ) ≤ W * S := mul_nonneg hW0 hS0
  rw [abs_of_nonneg hWS0] at hp
  obtain ⟨p2, p3⟩ := abs_le.1 hp
  have b1 : (W : ℚ) * ((1 - ε) * X) ≤ W * S := mul_le_mul_of_nonneg_left (by linarith) hW0
  have b2 : (W : ℚ) * S ≤ W * ((1 + ε) * X) := mul_le_mul_of_nonneg_left (by linarith) hW0
  constructor
  · calc (W : ℚ) * ((1 - ε) ^ 2 * X) = (1 - ε) * (W * ((1 - ε) * X)) := by ring
      _ ≤ (1 - ε) * (W * S) := mul_le_mul_of_nonneg_left b1 (by linarith)
      _ ≤ p := by linarith
  · calc (p : ℚ) ≤ (1 + ε) * (W * S) := by linarith
      _ ≤ (1 + ε) * (W * ((1 + ε) * X)) := mul_le_mul_of_nonneg_left b2 (by linarith)
      _ = W * ((1 + ε) ^ 2 * X) := by ring

theorem zero_mul' (p : fmt.Num) : mul (ofNat 0) p = (zero : fmt.Num) := by
  refine Subtype.ext ?_
  show fmt.rounding.rnd ((ofNat 0 : fmt.Num).1 * p.1) = (zero : fmt.Num).1
  have hz : (ofNat 0 : fmt.Num).1 = 0 := by
    show fmt.rounding.rnd ((0 : ℕ) : ℚ) = 0
    rw [Nat.cast_zero, fmt.rounding.zero']
  rw [hz, zero_mul, fmt.rounding.zero']
  exact hz.symm

theorem penalty_zero {w u v : ℕ} (h : w = 0 ∨ u = v) : (mul (ofNat w) (sqr (sub (ofNat u) (ofNat v))) : fmt.Num) = zero := by
  rcases h with rfl | rfl
  · exact zero_mul' _
  · rw [LawfulFloat.sub_self]
    show mul _ (mul zero zero) = _
    rw [LawfulFloat.mul_zero, LawfulFloat.mul_zero]

/-- Penalties of different differences are different. -/
theorem penalty_lt {k : ℕ} (hk : k < fmt.top) (hd : 24 ≤ fmt.digits) {a w u v v' : ℕ} (ha : a + 32 ≤ k) (hw : w ≤ 2 ^ a) (hw0 : w ≠ 0) (hu : u ≤ 2 ^ 16)
    (hv : v ≤ 2 ^ 16) (hv' : v' ≤ 2 ^ 16) (h : ((u : ℤ) - v).natAbs < ((u : ℤ) - v').natAbs) :
    lt (mul (ofNat w) (sqr (sub (ofNat u) (ofNat v)))) (mul (ofNat w) (sqr (sub (ofNat u) (ofNat v'))) : fmt.Num) = true := by
  refine decide_eq_true ?_
  refine (penalty_bounds hk hd ha hw hu hv).2.trans_lt (lt_of_lt_of_le ?_ (penalty_bounds hk hd ha hw hu hv').1)
  have hu0 := unit_nonneg (fmt := fmt)
  have hu1 : fmt.unit ≤ 1 / 2 ^ 24 := by
    unfold unit
    exact one_div_le_one_div_of_le (by positivity) (pow_le_pow_right₀ (by norm_num) hd)
  obtain ⟨W, eW, W0, W1, hW⟩ := ofNat_error (fmt := fmt) (k := a) (by omega) hw
  have hWpos : 0 < (ofNat w : fmt.Num).1 := by
    rw [eW]
    have : (1 : ℚ) ≤ w := by exact_mod_cast Nat.one_le_iff_ne_zero.2 hw0
    have := (abs_le.1 hW).1
    nlinarith
  refine mul_lt_mul_of_pos_left ?_ hWpos
  have e : ∀ v : ℕ, ((u : ℚ) - v) ^ 2 = ((((u : ℤ) - v).natAbs : ℕ) : ℚ) ^ 2 := by
    intro v
    rw [Nat.cast_natAbs, Int.cast_abs, sq_abs]
    push_cast
    rfl
  rw [e, e]
  have hm : ((u : ℤ) - v').natAbs ≤ 2 ^ 16 := by omega
  generalize ((u : ℤ) - v).natAbs = n at *
  generalize ((u : ℤ) - v').natAbs = m at *
  have h1 : (n : ℚ) + 1 ≤ m := by exact_mod_cast h
  have h2 : (m : ℚ) ≤ 2 ^ 16 := by exact_mod_cast hm
  have h3 : (0 : ℚ) ≤ n := Nat.cast_nonneg n
  generalize fmt.unit = ε at *
  have h4 : (n : ℚ) ^ 2 + m ≤ (m : ℚ) ^ 2 := by nlinarith
  have h5 : (m : ℚ) ^ 2 ≤ 2 ^ 16 * m := by nlinarith
  have h6 : ε * (m : ℚ) ^ 2 ≤ 1 / 2 ^ 8 * m := by
    calc ε * (m : ℚ) ^ 2 ≤ 1 / 2 ^ 24 * (m : ℚ) ^ 2 := mul_le_mul_of_nonneg_right hu1 (sq_nonneg _)
      _ ≤ 1 / 2 ^ 24 * (2 ^ 16 * m) := mul_le_mul_of_nonneg_left h5 (by norm_num)
      _ = 1 / 2 ^ 8 * m := by ring
  have h7 : ε * (n : ℚ) ^ 2 ≤ ε * (m : ℚ) ^ 2 := mul_le_mul_of_nonneg_left (by linarith) hu0
  have h8 : ε ^ 2 * (n : ℚ) ^ 2 ≤ ε ^ 2 * (m : ℚ) ^ 2 := mul_le_mul_of_nonneg_left (by linarith) (sq_nonneg _)
  nlinarith

theorem penalty_le (hd : 24 ≤ fmt.digits) {w u v v' : ℕ} (hu : u ≤ 2 ^ 16)
    (hv : v ≤ 2 ^ 16) (hv' : v' ≤ 2 ^ 16) (h : ((u : ℤ) - v).natAbs ≤ ((u : ℤ) - v').natAbs) :
    le (mul (ofNat w) (sqr (sub (ofNat u) (ofNat v)))) (mul (ofNat w) (sqr (sub (ofNat u) (ofNat v'))) : fmt.Num) = true := by
  have e : ∀ n : ℕ, n ≤ 2 ^ 16 → (ofNat n : fmt.Num).1 = ((n : ℤ) : ℚ) := fun n hn => ofNat_exact (k := 16) (by omega) hn
  have hx : ∀ v : ℕ, v ≤ 2 ^ 16 → |(u : ℤ) - v| ≤ 2 ^ 16 := by
    intro v hv
    rw [abs_le]
    constructor <;> omega
  have e3 : ∀ v : ℕ, v ≤ 2 ^ 16 → (sub (ofNat u) (ofNat v) : fmt.Num).1 = (((u : ℤ) - v : ℤ) : ℚ) := fun v hv =>
    sub_exact (fmt := fmt) (k := 16) (by omega) (e u hu) (e v hv) (hx v hv)
  refine decide_eq_true (fmt.rounding.mono (mul_le_mul_of_nonneg_left (fmt.rounding.mono ?_) (fmt.rounding.rnd_nonneg (Nat.cast_nonneg w))))
  rw [e3 v hv, e3 v' hv']
  have := Nat.mul_self_le_mul_self h
  rw [← Int.cast_mul, ← Int.cast_mul, ← Int.natAbs_mul_self' ((u : ℤ) - v), ← Int.natAbs_mul_self' ((u : ℤ) - v')]
  exact_mod_cast this

end Format

section
variable {F G : Type} [FloatOps F] [FloatOps G] {L : Nat → Nat → Nat}

/-- Only images matter. -/
theorem DisparityGraph.Ideal.congr {g : DisparityGraph F} {g' : DisparityGraph G} (hl : g'.left = g.left) (hr : g'.right = g.right)
    (hd : g'.disparityLevels = g.disparityLevels) {c s c' s' : ℕ} (hc : c = 0 ↔ c' = 0) (hs : s = 0 ↔ s' = 0) (h : g.Ideal c s L) : g'.Ideal c' s' L := by
  obtain ⟨l, r, n, a1, a2, a3⟩ := g
  obtain ⟨l', r', n', a1', a2', a3'⟩ := g'
  simp only at hl hr hd
  subst hl hr hd
  exact ⟨fun x y hx hy => ⟨(h.node x y hx hy).1, fun d hd => ⟨((h.node x y hx hy).2 d hd).1.imp hc.1 id, fun hlt =>
    ⟨fun h0 => (((h.node x y hx hy).2 d hd).2 hlt).1 (hc.2 h0), (((h.node x y hx hy).2 d hd).2 hlt).2⟩⟩⟩,
    fun x y k hk => ⟨(h.edge x y k hk).1, (h.edge x y k hk).2.imp hs.1 id⟩⟩

/-- The labeling of zeros is ideal if the best match of each pixel is at the same place. -/
theorem DisparityGraph.Ideal.zeros {g : DisparityGraph F} (hg : g.Valid) {c s : ℕ}
    (h : c = 0 ∨ ∀ x y d, g.IsNode x y d → g.mismatch x y 0 ≤ g.mismatch x y d) : g.Ideal c s fun _ _ => 0 where
  node x y hx hy := ⟨⟨hx, hy, hg.levels_pos, by rw [Nat.add_zero]; exact hx⟩, fun d hd => ⟨h.imp id fun h => h x y d hd, fun hlt => absurd hlt d.not_lt_zero⟩⟩
  edge x y k hk := ⟨⟨hk, ⟨hk.1, hk.2.1, hg.levels_pos, hk.1⟩, ⟨hk.nbx_lt, hk.nby_lt, hg.levels_pos, hk.nbx_lt⟩, by unfold OrderOK; omega⟩, .inr rfl⟩

variable {left right : Image} {levels : UInt64}

theorem DisparityGraph.Ideal.fresh {a b : F} {a' b' : G} {c s c' s' : ℕ} (hc : c = 0 ↔ c' = 0) (hs : s = 0 ↔ s' = 0)
    (h : (freshGraph left right levels a b).Ideal c s L) : (freshGraph left right levels a' b').Ideal c' s' L :=
  .congr (g := freshGraph left right levels a b) (g' := freshGraph left right levels a' b') rfl rfl rfl hc hs h

/-- In arithmetic with rounding ideal labelings are perfect. -/
theorem DisparityGraph.Ideal.perfect {fmt : Format} {k : ℕ} (hk : k < fmt.top) (hd : 24 ≤ fmt.digits) {a c s : ℕ} (ha : a + 32 ≤ k) (hc : c ≤ 2 ^ a)
    (hl : ∀ x y, left.at x y ≤ 2 ^ 16) (hr : ∀ x y, right.at x y ≤ 2 ^ 16)
    (h : (freshGraph left right levels (ofNat c : fmt.Num) (ofNat s)).Ideal c s L) : (freshGraph left right levels (ofNat c : fmt.Num) (ofNat s)).Perfect L := by
  have hs0 : le (zero : fmt.Num) (ofNat s) = true := LawfulFloat.ofNat_mono _ _ s.zero_le
  refine ⟨fun x y hx hy => ⟨(h.node x y hx hy).1, fun d hd' => ?_⟩, fun x y k hk => ⟨(h.edge x y k hk).1, fun d d' hd' => ?_⟩⟩
  · obtain ⟨h1, h2⟩ := (h.node x y hx hy).2 d hd'
    rw [fresh_nodeQ, fresh_nodeQ]
    refine ⟨?_, fun hlt => ?_⟩
    · rcases h1 with h1 | h1
      · rw [h1, Format.zero_mul', Format.zero_mul']
        exact LawfulFloat.le_refl _
      · exact Format.penalty_le hd (hr _ _) (hl _ _) (hl _ _) h1
    · exact Format.penalty_lt hk hd ha hc (h2 hlt).1 (hr _ _) (hl _ _) (hl _ _) (h2 hlt).2
  · rw [fresh_edgeQ, fresh_edgeQ]
    have hnn : ∀ u v : ℕ, le zero (mul (ofNat s) (sqr (sub (ofNat u) (ofNat v))) : fmt.Num) = true := by
      intro u v
      have := LawfulFloat.mul_mono _ _ _ hs0 (LawfulFloat.sqr_nonneg (sub (ofNat u) (ofNat v) : fmt.Num))
      rwa [LawfulFloat.mul_zero] at this
    rw [Format.penalty_zero (h.edge x y k hk).2]
    exact hnn _ _

/-- In exact arithmetic ideal labelings are the perfect ones. -/
theorem DisparityGraph.perfect_iff_ideal {c s : ℕ} (hg : (freshGraph left right levels (ofNat c : ℚ) (ofNat s)).Fresh) :
    (freshGraph left right levels (ofNat c : ℚ) (ofNat s)).Perfect L ↔ (freshGraph left right levels (ofNat c : ℚ) (ofNat s)).Ideal c s L := by
  have hc0 : (0 : ℚ) ≤ c := Nat.cast_nonneg c
  have hs0 : (0 : ℚ) ≤ s := Nat.cast_nonneg s
  have hn : ∀ x y d, (freshGraph left right levels (ofNat c : ℚ) (ofNat s)).nodeQ x y d =
      c * (((freshGraph left right levels (ofNat c : ℚ) (ofNat s)).mismatch x y d : ℕ) : ℚ) ^ 2 := by
    intro x y d
    rw [fresh_nodeQ]
    unfold DisparityGraph.mismatch
    rw [Nat.cast_natAbs, Int.cast_abs, sq_abs, sq]
    push_cast
    rfl
  have he : ∀ x y k d d', (freshGraph left right levels (ofNat c : ℚ) (ofNat s)).edgeQ x y k d d' = s * ((d : ℚ) - d') ^ 2 := by
    intro x y k d d'
    rw [fresh_edgeQ, sq]
    rfl
  have hle : ∀ n m : ℕ, (c : ℚ) * (n : ℚ) ^ 2 ≤ c * (m : ℚ) ^ 2 ↔ c = 0 ∨ n ≤ m := by
    intro n m
    rcases Nat.eq_zero_or_pos c with rfl | h
    · simp
    · have h' : (0 : ℚ) < c := by exact_mod_cast h
      rw [mul_le_mul_iff_right₀ h', pow_le_pow_iff_left₀ (Nat.cast_nonneg _) (Nat.cast_nonneg _) two_ne_zero, Nat.cast_le]
      exact ⟨.inr, fun h0 => h0.resolve_left h.ne'⟩
  have hlt : ∀ n m : ℕ, (c : ℚ) * (n : ℚ) ^ 2 < c * (m : ℚ) ^ 2 ↔ c ≠ 0 ∧ n < m := by
    intro n m
    rw [← not_le, hle, not_or, not_le]
  constructor
  · intro h
    refine ⟨fun x y hx hy => ⟨(h.node x y hx hy).1, fun d hd => ?_⟩, fun x y k hk => ⟨(h.edge x y k hk).1, ?_⟩⟩
    · obtain ⟨h1, h2⟩ := (h.node x y hx hy).2 d hd
      rw [hn, hn] at h1 h2
      exact ⟨(hle _ _).1 (of_decide_eq_true h1), fun hl => (hlt _ _).1 (of_decide_eq_true (h2 hl))⟩
    · have := h.edge_zero hg hk
      rw [he] at this
      rcases mul_eq_zero.1 this with h0 | h0
      · exact .inl (by exact_mod_cast h0)
      · exact .inr (by exact_mod_cast sub_eq_zero.1 (pow_eq_zero_iff two_ne_zero |>.1 h0))
  · intro h
    refine ⟨fun x y hx hy => ⟨(h.node x y hx hy).1, fun d hd => ?_⟩, fun x y k hk => ⟨(h.edge x y k hk).1, fun d d' hd => ?_⟩⟩
    · obtain ⟨h1, h2⟩ := (h.node x y hx hy).2 d hd
      rw [hn, hn]
      exact ⟨decide_eq_true ((hle _ _).2 h1), fun hl => decide_eq_true ((hlt _ _).2 (h2 hl))⟩
    · rw [he, he]
      refine decide_eq_true ?_
      have : (s : ℚ) * ((L x y : ℚ) - L (nbx x k) (nby y k)) ^ 2 = 0 := by
        rcases (h.edge x y k hk).2 with h0 | h0
        · rw [h0]; simp
        · rw [h0]; simp
      rw [this]
      positivity

end
end SP
