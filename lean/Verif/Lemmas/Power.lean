import Verif.Props.Threshold
import Verif.Lemmas.NearOptimal
/-!
# Multiplication of penalties by a power of two

A relation of penalties that keeps comparisons and differences keeps the best map. Multiplication by a power of two is such a relation for
numbers of a format if penalties are integers.
-/
namespace SP
open FloatOps

section
variable {F : Type} [FloatOps F] [LawfulFloat F] {g g' : DisparityGraph F} {R : F → F → Prop}

/-- Penalties of `g'` and their differences are related to those of `g`; the relation keeps comparisons. -/
structure Related (R : F → F → Prop) (g g' : DisparityGraph F) : Prop where
  le : ∀ {a a' b b'}, R a a' → R b b' → le a' b' = le a b
  width : g'.right.width = g.right.width
  height : g'.right.height = g.right.height
  levels : g'.disparityLevels = g.disparityLevels
  node : ∀ x y d, g.IsNode x y d → R (g.nodeQ x y d) (g'.nodeQ x y d)
  nodes : ∀ x y d e, g.IsNode x y d → g.IsNode x y e →
    R (sub (g.nodeQ x y d) (g.nodeQ x y e)) (sub (g'.nodeQ x y d) (g'.nodeQ x y e))
  edges : ∀ x y j d d' e e', g.IsEdge x y j d d' → g.IsEdge x y j e e' →
    R (sub (g.edgeQ x y j d d') (g.edgeQ x y j e e')) (sub (g'.edgeQ x y j d d') (g'.edgeQ x y j e e'))
  jump : ∀ d d', d < g.levels → d' < g.levels →
    R (mul g.smoothness (sqr (sub (ofNat d) (ofNat d')))) (mul g'.smoothness (sqr (sub (ofNat d) (ofNat d'))))

theorem Related.lt (h : Related R g g') {a a' b b' : F} (ha : R a a') (hb : R b b') : lt a' b' = lt a b := by
  rw [Bool.eq_iff_iff, LawfulFloat.lt_iff, LawfulFloat.lt_iff, h.le hb ha]

theorem Related.isNode (h : Related R g g') (x y d : ℕ) : g'.IsNode x y d ↔ g.IsNode x y d := by
  simp only [DisparityGraph.IsNode, DisparityGraph.w, DisparityGraph.h, DisparityGraph.levels, h.width, h.height, h.levels]

theorem Related.hasNb (h : Related R g g') (x y j : ℕ) : HasNb g'.w g'.h x y j ↔ HasNb g.w g.h x y j := by
  simp only [DisparityGraph.w, DisparityGraph.h, h.width, h.height]

theorem Related.isEdge (h : Related R g g') (x y j d d' : ℕ) : g'.IsEdge x y j d d' ↔ g.IsEdge x y j d d' := by
  simp only [DisparityGraph.IsEdge, h.isNode, h.hasNb]

theorem Related.feasible (h : Related R g g') {t t' : F} (ht : R t t') (L : ℕ → ℕ → ℕ) : g'.FeasibleAt t' L ↔ g.FeasibleAt t L := by
  have hw : g'.w = g.w := by simp only [DisparityGraph.w, h.width]
  have hh : g'.h = g.h := by simp only [DisparityGraph.h, h.height]
  unfold DisparityGraph.FeasibleAt
  simp only [h.isNode, h.isEdge]
  rw [hw, hh]
  refine forall_congr' fun x => forall_congr' fun y => forall_congr' fun _ => forall_congr' fun _ => and_congr_right fun hn => and_congr ?_ ?_
  · refine forall_congr' fun d => forall_congr' fun hd => ?_
    rw [h.le (h.nodes _ _ _ _ hn hd) ht]
  · refine forall_congr' fun j => forall_congr' fun _ => and_congr_right fun he => ?_
    refine forall_congr' fun d => forall_congr' fun d' => forall_congr' fun hd => ?_
    rw [h.le (h.edges _ _ _ _ _ _ _ he hd) ht]

/-- The best map is the same. -/
theorem Related.best_map (h : Related R g g') (hg : g.Fresh) (hg' : g'.Fresh) {t : F} {im : Image} (hb : BestMap g t im) :
    ∃ t', R t t' ∧ BestMap g' t' im := by
  obtain ⟨p, -, hp⟩ := tables_mk hg
  obtain ⟨p', -, hp'⟩ := tables_mk hg'
  obtain ⟨t', ht⟩ : ∃ t', R t t' := by
    obtain ⟨a, ha, h1, h2⟩ := feasible_candidate hg hp hb.best.1
    rw [LawfulFloat.le_antisymm _ _ (hb.least _ _ h2) h1]
    rcases candidate_cases hg hp ha with ⟨x, y, d, hd, rfl⟩ | ⟨d, d', hd, hd', rfl⟩
    · obtain ⟨e, he, e1⟩ := lowPixel_attained hg.toValid hd.1 hd.2.1
      rw [e1]
      exact ⟨_, h.nodes x y d e hd he⟩
    · exact ⟨_, h.jump d d' hd hd'⟩
  refine ⟨t', ht, hb.width.trans h.width.symm, hb.height.trans h.height.symm, hb.levels.trans h.levels.symm, ?_, ?_, fun t'' L hL => ?_⟩
  · rw [hb.size]
    simp only [DisparityGraph.w, DisparityGraph.h, h.width, h.height]
  · have hw : g'.w = g.w := by simp only [DisparityGraph.w, h.width]
    have hh : g'.h = g.h := by simp only [DisparityGraph.h, h.height]
    rw [hw, hh]
    refine ⟨(h.feasible ht _).2 hb.best.1, fun L' hL' x y hx hy hsame => ?_⟩
    have hL := (h.feasible ht L').1 hL'
    obtain ⟨h1, h2⟩ := hb.best.2 L' hL x y hx hy hsame
    have n1 := h.node _ _ _ (hb.best.1 x y hx hy).1
    have n2 := h.node _ _ _ (hL x y hx hy).1
    rw [h.le n1 n2, h.lt n1 n2]
    exact ⟨h1, h2⟩
  · obtain ⟨a', ha, h1, h2⟩ := feasible_candidate hg' hp' hL
    obtain ⟨a, hR⟩ : ∃ a, R a a' := by
      rcases candidate_cases hg' hp' ha with ⟨x, y, d, hd, rfl⟩ | ⟨d, d', hd, hd', rfl⟩
      · obtain ⟨e, he, e1⟩ := lowPixel_attained hg'.toValid hd.1 hd.2.1
        rw [e1]
        exact ⟨_, h.nodes x y d e ((h.isNode _ _ _).1 hd) ((h.isNode _ _ _).1 he)⟩
      · have e : g'.levels = g.levels := by simp only [DisparityGraph.levels, h.levels]
        exact ⟨_, h.jump d d' (e ▸ hd) (e ▸ hd')⟩
    refine LawfulFloat.le_trans _ _ _ ?_ h1
    rw [h.le ht hR]
    exact hb.least _ _ ((h.feasible hR L).1 h2)

end

/-! ## Numbers of a format -/

namespace Format
variable {fmt : Format}

theorem log_scale {v : ℚ} (hv : 0 < v) (k : ℕ) : Int.log 2 (2 ^ k * v) = Int.log 2 v + k := by
  have hpos : 0 < 2 ^ k * v := by positivity
  apply le_antisymm
  · rw [← Int.lt_add_one_iff, ← Int.lt_zpow_iff_log_lt (b := 2) (by norm_num) hpos]
    have := lt_pow_log v
    push_cast
    rw [show Int.log 2 v + k + 1 = k + (Int.log 2 v + 1) by ring, zpow_add₀ (by norm_num), zpow_natCast]
    exact mul_lt_mul_of_pos_left this (by positivity)
  · rw [← Int.zpow_le_iff_le_log (b := 2) (by norm_num) hpos]
    have := pow_log_le hv
    push_cast
    rw [show Int.log 2 v + k = k + Int.log 2 v by ring, zpow_add₀ (by norm_num), zpow_natCast]
    exact mul_le_mul_of_nonneg_left this (by positivity)

theorem nearest_scale {v : ℚ} (hv : 1 ≤ v) (k : ℕ) : fmt.nearest (2 ^ k * v) = 2 ^ k * fmt.nearest v := by
  have hpos : 0 < v := by linarith
  have h0 : 0 ≤ Int.log 2 v := by
    rw [← Int.zpow_le_iff_le_log (b := 2) (by norm_num) hpos]
    simpa using hv
  have h1 := fmt.least_le
  have hd : lastDigit fmt.digits fmt.least (2 ^ k * v) = k + lastDigit fmt.digits fmt.least v := by
    unfold lastDigit
    rw [log_scale hpos]
    omega
  unfold nearest SP.nearest
  rw [hd, zpow_add₀ (by norm_num), zpow_natCast]
  have hk : (2 : ℚ) ^ k ≠ 0 := by positivity
  rw [mul_div_mul_left _ _ hk]
  ring

theorem near_scale (n : ℤ) (k : ℕ) : fmt.near (2 ^ k * n) = 2 ^ k * fmt.near n := by
  have key : ∀ n : ℤ, 0 < n → fmt.near (2 ^ k * n) = 2 ^ k * fmt.near n := by
    intro n hn
    have h1 : (1 : ℚ) ≤ n := by exact_mod_cast hn
    unfold near
    rw [toNearest_nonneg (by positivity), toNearest_nonneg (by linarith)]
    exact nearest_scale h1 k
  rcases lt_trichotomy n 0 with h | rfl | h
  · have := key (-n) (by omega)
    push_cast at this
    rw [mul_neg] at this
    unfold near at this ⊢
    rw [toNearest_neg, toNearest_neg] at this
    linarith
  · have : fmt.near 0 = 0 := by
      unfold near
      rw [toNearest_nonneg le_rfl]
      exact nearest_zero
    simp [this]
  · exact key n h

theorem near_int (n : ℤ) : ∃ m : ℤ, fmt.near n = m := by
  have key : ∀ n : ℕ, ∃ m : ℤ, fmt.near (n : ℚ) = m := by
    intro n
    obtain ⟨m, hm⟩ := fmt.nearest_int n
    exact ⟨m, by unfold near; rw [toNearest_nonneg (by positivity)]; exact_mod_cast hm⟩
  obtain ⟨k, rfl | rfl⟩ := n.eq_nat_or_neg
  · exact_mod_cast key k
  · obtain ⟨m, hm⟩ := key k
    refine ⟨-m, ?_⟩
    push_cast
    unfold near at hm ⊢
    rw [toNearest_neg, hm]

/-- Rounding of numbers that are not too large. -/
theorem rnd_near {x : ℚ} {B : ℕ} (hB : B < fmt.top) (h : |x| ≤ 2 ^ B) : fmt.rounding.rnd x = fmt.near x ∧ |fmt.near x| ≤ 2 ^ B := by
  have : |fmt.near x| ≤ 2 ^ B := by
    rw [abs_near]
    exact fmt.nearest_le (abs_nonneg x) h
  exact ⟨toFinite_eq (this.trans (fmt.pow_le_largest hB)), this⟩

/-- Integers of a format that are not too large. -/
def Whole (B : ℕ) (a : fmt.Num) : Prop := |a.1| ≤ 2 ^ B ∧ ∃ n : ℤ, a.1 = n

/-- The second number is the first one multiplied by a power of two. -/
def Times (k : ℕ) (a a' : fmt.Num) : Prop := a'.1 = 2 ^ k * a.1

theorem Times.le {k : ℕ} {a a' b b' : fmt.Num} (ha : Times k a a') (hb : Times k b b') : FloatOps.le a' b' = FloatOps.le a b := by
  rw [Bool.eq_iff_iff]
  show decide (a'.1 ≤ b'.1) = true ↔ decide (a.1 ≤ b.1) = true
  rw [decide_eq_true_iff, decide_eq_true_iff, ha, hb]
  exact mul_le_mul_iff_right₀ (by positivity)

theorem round_whole {B : ℕ} (hB : B < fmt.top) {n : ℤ} (h : |(n : ℚ)| ≤ 2 ^ B) : Whole B (fmt.rounding.round n) := by
  obtain ⟨h1, h2⟩ := rnd_near (fmt := fmt) hB h
  obtain ⟨m, hm⟩ := fmt.near_int n
  refine ⟨?_, m, ?_⟩
  · show |fmt.rounding.rnd n| ≤ _
    rw [h1]
    exact h2
  · show fmt.rounding.rnd n = _
    rw [h1, hm]

theorem round_times {B k : ℕ} (hB : B + k < fmt.top) {n : ℤ} (h : |(n : ℚ)| ≤ 2 ^ B) :
    Times k (fmt.rounding.round n) (fmt.rounding.round (2 ^ k * n)) := by
  show fmt.rounding.rnd (2 ^ k * n) = 2 ^ k * fmt.rounding.rnd n
  rw [(rnd_near (B := B) (by omega) h).1, (rnd_near (B := B + k) hB ?_).1, near_scale]
  rw [abs_mul, abs_of_nonneg (show (0 : ℚ) ≤ 2 ^ k by positivity), pow_add, mul_comm]
  exact mul_le_mul_of_nonneg_right h (by positivity)

section
variable {B C k j : ℕ} {a a' b b' : fmt.Num}

theorem whole_ofNat (hB : B < fmt.top) {n : ℕ} (h : n ≤ 2 ^ B) : Whole B (ofNat n : fmt.Num) := by
  have := round_whole (fmt := fmt) (n := n) hB (by rw [abs_of_nonneg (by positivity)]; exact_mod_cast h)
  exact_mod_cast this

theorem times_ofNat (hB : B + k < fmt.top) {n : ℕ} (h : n ≤ 2 ^ B) : Times k (ofNat n : fmt.Num) (ofNat (2 ^ k * n)) := by
  have := round_times (fmt := fmt) (n := n) hB (by rw [abs_of_nonneg (by positivity)]; exact_mod_cast h)
  show Times k (fmt.rounding.round (n : ℚ)) (fmt.rounding.round ((2 ^ k * n : ℕ) : ℚ))
  push_cast
  exact_mod_cast this

theorem Whole.sub_le (ha : Whole B a) (hb : Whole B b) : |a.1 - b.1| ≤ 2 ^ (B + 1) := by
  refine (abs_sub _ _).trans ?_
  have := ha.1
  have := hb.1
  rw [pow_succ]
  linarith

theorem Whole.sub (hB : B + 1 < fmt.top) (ha : Whole B a) (hb : Whole B b) : Whole (B + 1) (FloatOps.sub a b) := by
  have h := ha.sub_le hb
  obtain ⟨n, hn⟩ := ha.2
  obtain ⟨m, hm⟩ := hb.2
  have := round_whole (fmt := fmt) (n := n - m) hB (by push_cast; rw [← hn, ← hm]; exact h)
  push_cast at this
  rwa [← hn, ← hm] at this

theorem Times.sub (hB : B + 1 + k < fmt.top) (ha : Whole B a) (hb : Whole B b) (h : Times k a a') (h' : Times k b b') :
    Times k (FloatOps.sub a b) (FloatOps.sub a' b') := by
  have hle := ha.sub_le hb
  obtain ⟨n, hn⟩ := ha.2
  obtain ⟨m, hm⟩ := hb.2
  have := round_times (fmt := fmt) (n := n - m) hB (by push_cast; rw [← hn, ← hm]; exact hle)
  push_cast at this
  rw [← hn, ← hm, mul_sub, ← h, ← h'] at this
  exact this

theorem Whole.mul_le (ha : Whole B a) (hb : Whole C b) : |a.1 * b.1| ≤ 2 ^ (B + C) := by
  rw [abs_mul, pow_add]
  exact mul_le_mul ha.1 hb.1 (abs_nonneg _) (by positivity)

theorem Whole.mul (hB : B + C < fmt.top) (ha : Whole B a) (hb : Whole C b) : Whole (B + C) (FloatOps.mul a b) := by
  have h := ha.mul_le hb
  obtain ⟨n, hn⟩ := ha.2
  obtain ⟨m, hm⟩ := hb.2
  have := round_whole (fmt := fmt) (n := n * m) hB (by push_cast; rw [← hn, ← hm]; exact h)
  push_cast at this
  rwa [← hn, ← hm] at this

/-- Products, if the exact ones are in this ratio. -/
theorem times_mul (hB : B + C + k < fmt.top) (ha : Whole B a) (hb : Whole C b) (h : a'.1 * b'.1 = 2 ^ k * (a.1 * b.1)) :
    Times k (FloatOps.mul a b) (FloatOps.mul a' b') := by
  have hle := ha.mul_le hb
  obtain ⟨n, hn⟩ := ha.2
  obtain ⟨m, hm⟩ := hb.2
  have := round_times (fmt := fmt) (n := n * m) hB (by push_cast; rw [← hn, ← hm]; exact hle)
  push_cast at this
  rw [← hn, ← hm, ← h] at this
  exact this

end
end Format
end SP
