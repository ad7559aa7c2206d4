import Verif.Props.Neighbors
import Verif.Lemmas.InTurn
/-!
# C120: two disparity levels

With two levels it is known exactly which map is the best one. If smoothness exceeds what any pixel loses with disparity 0 instead of 1, then the
map consists of zeros. Otherwise each pixel has the better of its two disparities, whatever its neighbors have: smoothness acts on the
whole image or does not act at all.
-/
namespace SP
open FloatOps ConstraintGraph Gpu
set_option maxRecDepth 1000000

section
variable {F : Type} [FloatOps F]

/-- The penalty of the disparity `d` of the pixel `(x, y)` of the right image. -/
def pixelPenalty (left right : Image) (c : F) (x y d : ℕ) : F := mul c (sqr (sub (ofNat (right.at x y)) (ofNat (left.at (x + d) y))))

/-- The penalty of neighbors with disparities 0 and 1. -/
def stepPenalty (s : F) : F := mul s (sqr (sub (ofNat 1) (ofNat 0)))

/-- Some pixel loses at least as much with disparity 0 instead of 1 as smoothness requires for different neighbors. -/
def SmoothnessWeak (left right : Image) (c s : F) : Prop :=
  ∃ x y, x + 1 < right.width.toNat ∧ y < right.height.toNat ∧
    le (stepPenalty s) (sub (pixelPenalty left right c x y 0) (pixelPenalty left right c x y 1)) = true

/-- The better of two disparities; 0, if both of them are equally good, and in the last column. -/
def betterOfTwo (left right : Image) (c : F) (x y : ℕ) : ℕ :=
  if x + 1 < right.width.toNat ∧ lt (pixelPenalty left right c x y 1) (pixelPenalty left right c x y 0) = true then 1 else 0

/-- What the map with two levels is. -/
structure TwoLevelMap (left right : Image) (c s : F) (im : Image) : Prop where
  width : im.width = right.width
  height : im.height = right.height
  weak : SmoothnessWeak left right c s → ∀ x y, x < right.width.toNat → y < right.height.toNat → im.at x y = betterOfTwo left right c x y
  strong : ¬ SmoothnessWeak left right c s → ∀ x y, x < right.width.toNat → y < right.height.toNat → im.at x y = 0

/-- Finitely many numbers less than `S` have a bound less than `S`. -/
theorem bounded_row [LawfulFloat F] {S : F} (h0 : lt zero S = true) (f : ℕ → F) (n : ℕ) (hf : ∀ i, i < n → lt (f i) S = true) :
    ∃ t, lt t S = true ∧ le zero t = true ∧ ∀ i, i < n → le (f i) t = true := by
  induction n with
  | zero => exact ⟨zero, h0, LawfulFloat.le_refl _, fun i hi => absurd hi i.not_lt_zero⟩
  | succ n ih =>
    obtain ⟨t, h1, h2, h3⟩ := ih fun i hi => hf i (by omega)
    rcases LawfulFloat.le_total (f n) t with h | h
    · refine ⟨t, h1, h2, fun i hi => ?_⟩
      rcases Nat.lt_succ_iff_lt_or_eq.1 hi with hi | rfl
      · exact h3 i hi
      · exact h
    · refine ⟨f n, hf n (by omega), LawfulFloat.le_trans _ _ _ h2 h, fun i hi => ?_⟩
      rcases Nat.lt_succ_iff_lt_or_eq.1 hi with hi | rfl
      · exact LawfulFloat.le_trans _ _ _ (h3 i hi) h
      · exact LawfulFloat.le_refl _

theorem bounded_image [LawfulFloat F] {S : F} (h0 : lt zero S = true) (f : ℕ → ℕ → F) (w h : ℕ) (hf : ∀ x y, x < w → y < h → lt (f x y) S = true) :
    ∃ t, lt t S = true ∧ le zero t = true ∧ ∀ x y, x < w → y < h → le (f x y) t = true := by
  induction h with
  | zero => exact ⟨zero, h0, LawfulFloat.le_refl _, fun _ y _ hy => absurd hy y.not_lt_zero⟩
  | succ h ih =>
    obtain ⟨t, h1, h2, h3⟩ := ih fun x y hx hy => hf x y hx (by omega)
    obtain ⟨t', h1', h2', h3'⟩ := bounded_row h0 (f · h) w fun x hx => hf x h hx (by omega)
    rcases LawfulFloat.le_total t t' with hle | hle
    · refine ⟨t', h1', h2', fun x y hx hy => ?_⟩
      rcases Nat.lt_succ_iff_lt_or_eq.1 hy with hy | rfl
      · exact LawfulFloat.le_trans _ _ _ (h3 x y hx hy) hle
      · exact h3' x hx
    · refine ⟨t, h1, h2, fun x y hx hy => ?_⟩
      rcases Nat.lt_succ_iff_lt_or_eq.1 hy with hy | rfl
      · exact h3 x y hx hy
      · exact LawfulFloat.le_trans _ _ _ (h3' x hx) hle

variable [LawfulFloat F] {left right : Image} {c s : F}

local notation "G" => freshGraph left right 2 c s

theorem not_lt_of_le {a b : F} (h : le a b = true) : lt b a = false := LawfulFloat.not_lt_iff.2 h

theorem node_penalty_two (x y d : ℕ) : (G).nodeQ x y d = pixelPenalty left right c x y d := fresh_nodeQ x y d

theorem edge_two_same (x y k d : ℕ) : (G).edgeQ x y k d d = zero := by
  rw [fresh_edgeQ, LawfulFloat.sub_self]
  have : sqr (zero : F) = zero := LawfulFloat.mul_zero _
  rw [this, LawfulFloat.mul_zero]

theorem edge_two_differ {d d' : ℕ} (hd : d < 2) (hd' : d' < 2) (hne : d ≠ d') (x y k : ℕ) : (G).edgeQ x y k d d' = stepPenalty s := by
  rw [fresh_edgeQ]
  obtain ⟨rfl, rfl⟩ | ⟨rfl, rfl⟩ : (d = 1 ∧ d' = 0) ∨ (d = 0 ∧ d' = 1) := by omega
  · rfl
  · rw [LawfulFloat.sqr_sub_comm]
    rfl

theorem step_nonneg (hs : le zero s = true) : le zero (stepPenalty s) = true := by
  have := LawfulFloat.mul_mono _ _ _ hs (LawfulFloat.sqr_nonneg (sub (ofNat 1) (ofNat 0) : F))
  rwa [LawfulFloat.mul_zero] at this

theorem pixel_nonneg (hc : le zero c = true) (x y d : ℕ) : le zero (pixelPenalty left right c x y d) = true := by
  have := LawfulFloat.mul_mono _ _ _ hc (LawfulFloat.sqr_nonneg (sub (ofNat (right.at x y)) (ofNat (left.at (x + d) y)) : F))
  rwa [LawfulFloat.mul_zero] at this

/-- At a threshold less than the penalty of different neighbors only zeros are feasible. -/
theorem zeros_below {t : F} {L : ℕ → ℕ → ℕ} (ht : lt t (stepPenalty s) = true) (h : (G).FeasibleAt t L) :
    ∀ x y, x < right.width.toNat → y < right.height.toNat → L x y = 0 := by
  have hz : ∀ x y, x < right.width.toNat → y < right.height.toNat → L x y < 2 ∧ x + L x y < right.width.toNat := fun x y hx hy =>
    ⟨(h x y hx hy).1.2.2.1, (h x y hx hy).1.2.2.2⟩
  have step : ∀ x y, x + 1 < right.width.toNat → y < right.height.toNat → L x y = L (x + 1) y := by
    intro x y hx hy
    by_contra hne
    have hx' : x < right.width.toNat := by omega
    have h1 := ((h x y hx' hy).2.2 0 ⟨hx', hy, .inl ⟨rfl, hx⟩⟩).2 0 0
      ⟨⟨hx', hy, .inl ⟨rfl, hx⟩⟩, ⟨hx', hy, Nat.zero_lt_two, hx'⟩, ⟨hx, hy, Nat.zero_lt_two, hx⟩, by unfold OrderOK; omega⟩
    rw [edge_two_same, LawfulFloat.sub_zero, edge_two_differ (hz x y hx' hy).1 (hz (nbx x 0) (nby y 0) hx hy).1 hne] at h1
    rw [not_lt_of_le h1] at ht
    cases ht
  have key : ∀ n y, n < right.width.toNat → y < right.height.toNat → L (right.width.toNat - 1 - n) y = 0 := by
    intro n
    induction n with
    | zero =>
      intro y hn hy
      have := (hz (right.width.toNat - 1) y (by omega) hy).2
      rw [Nat.sub_zero]
      omega
    | succ n ih =>
      intro y hn hy
      have := step (right.width.toNat - 1 - (n + 1)) y (by omega) hy
      rw [this]
      have e : right.width.toNat - 1 - (n + 1) + 1 = right.width.toNat - 1 - n := by omega
      rw [e]
      exact ih y (by omega) hy
  intro x y hx hy
  have := key (right.width.toNat - 1 - x) y (by omega) hy
  rwa [show right.width.toNat - 1 - (right.width.toNat - 1 - x) = x by omega] at this

omit [LawfulFloat F] in
theorem betterOfTwo_lt (x y : ℕ) : betterOfTwo left right c x y < 2 := by
  unfold betterOfTwo
  split_ifs <;> omega

theorem betterOfTwo_le {x y d : ℕ} (hd : d < 2) (hx : x + d < right.width.toNat) :
    le (pixelPenalty left right c x y (betterOfTwo left right c x y)) (pixelPenalty left right c x y d) = true := by
  unfold betterOfTwo
  split_ifs with h
  · obtain rfl | rfl : d = 0 ∨ d = 1 := by omega
    · have := h.2
      rw [LawfulFloat.lt_iff] at this
      rcases LawfulFloat.le_total (pixelPenalty left right c x y 1) (pixelPenalty left right c x y 0) with h' | h'
      · exact h'
      · rw [h'] at this
        cases this
    · exact LawfulFloat.le_refl _
  · obtain rfl | rfl : d = 0 ∨ d = 1 := by omega
    · exact LawfulFloat.le_refl _
    · by_contra hn
      refine h ⟨hx, ?_⟩
      rw [LawfulFloat.lt_iff]
      simpa using hn

/-- The better disparities are feasible at the penalty of different neighbors. -/
theorem better_feasible (hs : le zero s = true) (hw : 0 < right.width.toNat) :
    (G).FeasibleAt (stepPenalty s) (betterOfTwo left right c) := by
  have hnode : ∀ x y, x < right.width.toNat → y < right.height.toNat → (G).IsNode x y (betterOfTwo left right c x y) := by
    intro x y hx hy
    refine ⟨hx, hy, betterOfTwo_lt x y, ?_⟩
    show x + betterOfTwo left right c x y < right.width.toNat
    unfold betterOfTwo
    split_ifs with h
    · exact h.1
    · exact hx
  intro x y hx hy
  refine ⟨hnode x y hx hy, fun d hd => ?_, fun k hk => ⟨⟨hk, hnode x y hx hy, hnode _ _ hk.nbx_lt hk.nby_lt, ?_⟩, fun d d' hd => ?_⟩⟩
  · rw [node_penalty_two, node_penalty_two]
    have := LawfulFloat.sub_mono _ _ (pixelPenalty left right c x y d) (betterOfTwo_le (left := left) (right := right) (c := c) (y := y) hd.2.2.1 hd.2.2.2)
    rw [LawfulFloat.sub_self] at this
    exact LawfulFloat.le_trans _ _ _ this (step_nonneg hs)
  · have h1 := betterOfTwo_lt (left := left) (right := right) (c := c) x y
    have h2 := betterOfTwo_lt (left := left) (right := right) (c := c) (nbx x k) (nby y k)
    unfold OrderOK
    omega
  · have hle : le (G |>.edgeQ x y k (betterOfTwo left right c x y) (betterOfTwo left right c (nbx x k) (nby y k))) (stepPenalty s) = true := by
      by_cases he : betterOfTwo left right c x y = betterOfTwo left right c (nbx x k) (nby y k)
      · rw [he, edge_two_same]
        exact step_nonneg hs
      · rw [edge_two_differ (betterOfTwo_lt _ _) (betterOfTwo_lt _ _) he]
        exact LawfulFloat.le_refl _
    have h0 : le zero ((G).edgeQ x y k d d') = true := by
      by_cases he : d = d'
      · rw [he, edge_two_same]
        exact LawfulFloat.le_refl _
      · rw [edge_two_differ hd.2.1.2.2.1 hd.2.2.1.2.2.1 he]
        exact step_nonneg hs
    have := LawfulFloat.sub_anti _ _ ((G).edgeQ x y k (betterOfTwo left right c x y) (betterOfTwo left right c (nbx x k) (nby y k))) h0
    rw [LawfulFloat.sub_zero] at this
    exact LawfulFloat.le_trans _ _ _ this hle

/-- Zeros are feasible at each threshold that is not exceeded by losses of pixels. -/
theorem zeros_feasible_two {t : F} (hs : le zero s = true) (h0 : le zero t = true)
    (h : ∀ x y, x + 1 < right.width.toNat → y < right.height.toNat →
      le (sub (pixelPenalty left right c x y 0) (pixelPenalty left right c x y 1)) t = true) : (G).FeasibleAt t fun _ _ => 0 := by
  intro x y hx hy
  refine ⟨⟨hx, hy, Nat.zero_lt_two, hx⟩, fun d hd => ?_, fun k hk => ⟨⟨hk, ⟨hx, hy, Nat.zero_lt_two, hx⟩,
    ⟨hk.nbx_lt, hk.nby_lt, Nat.zero_lt_two, hk.nbx_lt⟩, ⟨fun _ => Nat.zero_le _, fun _ => Nat.zero_le _⟩⟩, fun d d' hd => ?_⟩⟩
  · rw [node_penalty_two, node_penalty_two]
    have hd2 : d < 2 := hd.2.2.1
    obtain rfl | rfl : d = 0 ∨ d = 1 := by omega
    · rw [LawfulFloat.sub_self]
      exact h0
    · exact h x y hd.2.2.2 hy
  · rw [edge_two_same]
    have h0' : le zero ((G).edgeQ x y k d d') = true := by
      by_cases he : d = d'
      · rw [he, edge_two_same]
        exact LawfulFloat.le_refl _
      · rw [edge_two_differ hd.2.1.2.2.1 hd.2.2.1.2.2.1 he]
        exact step_nonneg hs
    have := LawfulFloat.sub_anti _ _ zero h0'
    rw [LawfulFloat.sub_self] at this
    exact LawfulFloat.le_trans _ _ _ this h0

/-- If the least threshold is the penalty of different neighbors, then the map consists of better disparities. -/
theorem better_map {im : Image} (hs : le zero s = true) (hw : 0 < right.width.toNat) (hb : BestMap G (stepPenalty s) im) :
    ∀ x y, x < right.width.toNat → y < right.height.toNat → im.at x y = betterOfTwo left right c x y := by
  refine LexBest.unique hb.best ⟨better_feasible hs hw, fun L' hL' x y hx hy _ => ?_⟩
  obtain ⟨-, -, h1, h2⟩ := (hL' x y hx hy).1
  rw [node_penalty_two, node_penalty_two]
  refine ⟨betterOfTwo_le h1 h2, fun hlt => ?_⟩
  have h3 : betterOfTwo left right c x y = 1 := by
    have := betterOfTwo_lt (left := left) (right := right) (c := c) x y
    omega
  have h4 : L' x y = 0 := by omega
  rw [h3, h4]
  unfold betterOfTwo at h3
  split_ifs at h3 with h
  exact h.2

/-- **C120** for best maps. -/
theorem C120_best_map {t : F} {im : Image} (hs : le zero s = true) (hw : 0 < right.width.toNat) (hh : 0 < right.height.toNat)
    (hb : BestMap G t im) :
    TwoLevelMap left right c s im := by
  refine ⟨hb.width, hb.height, fun hweak => ?_, fun hstrong => ?_⟩
  · obtain ⟨x, y, hx, hy, hle⟩ := hweak
    have ht : t = stepPenalty s := by
      refine LawfulFloat.le_antisymm _ _ (hb.least _ _ (better_feasible hs hw)) ?_
      by_contra hn
      have hlt : lt t (stepPenalty s) = true := by
        rw [LawfulFloat.lt_iff]
        simpa using hn
      have hz := zeros_below hlt hb.best.1 x y (by omega) hy
      have := (hb.best.1 x y (by show x < right.width.toNat; omega) hy).2.1 1 ⟨by show x < right.width.toNat; omega, hy, Nat.one_lt_two, hx⟩
      rw [node_penalty_two, node_penalty_two] at this
      rw [show (fun x y => im.at x y) x y = 0 from hz] at this
      exact hn (LawfulFloat.le_trans _ _ _ hle this)
    subst ht
    exact better_map hs hw hb
  · have hlt : ∀ x y, x + 1 < right.width.toNat → y < right.height.toNat →
        lt (sub (pixelPenalty left right c x y 0) (pixelPenalty left right c x y 1)) (stepPenalty s) = true := by
      intro x y hx hy
      rw [LawfulFloat.lt_iff]
      by_contra hn
      exact hstrong ⟨x, y, hx, hy, by simpa using hn⟩
    by_cases h0 : lt zero (stepPenalty s) = true
    · obtain ⟨t', h1, h2, h3⟩ := bounded_image h0 (fun x y => sub (pixelPenalty left right c x y 0) (pixelPenalty left right c x y 1))
        (right.width.toNat - 1) right.height.toNat fun x y hx hy => hlt x y (by omega) hy
      have hle := hb.least t' _ (zeros_feasible_two hs h2 fun x y hx hy => h3 x y (by omega) hy)
      refine zeros_below ?_ hb.best.1
      rw [LawfulFloat.lt_iff]
      by_contra hn
      have := LawfulFloat.le_trans _ _ _ (by simpa using hn : le (stepPenalty s) t = true) hle
      rw [LawfulFloat.lt_iff, this] at h1
      cases h1
    · -- smoothness is zero and no pixel is better with disparity 1
      have hz : stepPenalty s = zero := by
        refine LawfulFloat.le_antisymm _ _ ?_ (step_nonneg hs)
        exact LawfulFloat.not_lt_iff.1 (by simpa using h0)
      have ht : t = stepPenalty s := by
        refine LawfulFloat.le_antisymm _ _ (hb.least _ _ (better_feasible hs hw)) ?_
        obtain ⟨h1, h2, -⟩ := hb.best.1 0 0 hw hh
        have := h2 _ h1
        rw [LawfulFloat.sub_self] at this
        rw [hz]
        exact this
      subst ht
      intro x y hx hy
      rw [better_map hs hw hb x y hx hy]
      unfold betterOfTwo
      rw [if_neg]
      rintro ⟨hx1, h1⟩
      have h2 := hlt x y hx1 hy
      rw [hz, LawfulFloat.lt_iff] at h2
      rw [LawfulFloat.lt_iff] at h1
      have h3 : le (pixelPenalty left right c x y 1) (pixelPenalty left right c x y 0) = true := by
        rcases LawfulFloat.le_total (pixelPenalty left right c x y 1) (pixelPenalty left right c x y 0) with h | h
        · exact h
        · rw [h] at h1
          cases h1
      have := LawfulFloat.sub_mono _ _ (pixelPenalty left right c x y 1) h3
      rw [LawfulFloat.sub_self, h2] at this
      cases this

end

/-! ## Rows and the found threshold -/

section
variable {F : Type} [FloatOps F] [LawfulFloat F] {g : DisparityGraph F} {jobs : ℕ}

/-- Disparities `R` of the row `y` are feasible at the threshold, if there are no other rows. -/
def DisparityGraph.RowFeasibleAt (g : DisparityGraph F) (t : F) (y : ℕ) (R : ℕ → ℕ) : Prop :=
  ∀ x, x < g.w → g.IsNode x y (R x) ∧ (∀ d, g.IsNode x y d → le (sub (g.nodeQ x y (R x)) (g.nodeQ x y d)) t = true) ∧
    (0 < x → g.IsEdge x y 1 (R x) (R (x - 1)) ∧
      ∀ e e', g.IsEdge x y 1 e e' → le (sub (g.edgeQ x y 1 (R x) (R (x - 1))) (g.edgeQ x y 1 e e')) t = true)

/-- If `solve_csp` reports that the problem is solvable, then it is solvable for each row alone. -/
theorem solvedAt_rows (hg : g.Fresh) (hj : 0 < jobs) (hfit : g.h + jobs ≤ 18446744073709551616) {p : LowestPenalties F} (hp : Tables g p) {t : F}
    (h : SolvedAt (UInt64.ofNat jobs) g p t true) : ∀ y, y < g.h → ∃ R, g.RowFeasibleAt t y R := by
  intro y hy
  obtain ⟨r, hr, hb⟩ := h
  obtain ⟨c, hc, a1, a2, a3, a4, a5, -, a7⟩ := start_mk hg hp t
  rw [hc, bind_ok] at hr
  have eh : c.h = g.h := by unfold ConstraintGraph.h; rw [a4]
  have ew : c.w = g.w := by unfold ConstraintGraph.w; rw [a4]
  obtain ⟨r', hr', -, -, b3⟩ := solveCsp_mk a1 a2 hj (by rw [eh]; exact hfit)
  rw [hr] at hr'
  cases hr'
  rcases b3 with ⟨hal, -, -⟩ | ⟨-, -, b3⟩
  · rw [ew, eh] at hal
    obtain ⟨R, hR⟩ := sweep_rows hj hg.width_pos hal hy
    refine ⟨R, fun x hx => ?_⟩
    obtain ⟨h1, h2⟩ := hR x hx
    obtain ⟨h3, h4⟩ := (a7 _ _ _).1 h1
    exact ⟨h3, (node_iff hg h3).1 h4, fun h0 => (edge_iff hg a3 a4 a5 ⟨hx, hy, .inr (.inl ⟨rfl, h0⟩)⟩).1 (h2 h0)⟩
  · rw [b3] at hb
    cases hb

/-- **C121**. The found threshold is between two bounds: at it there are disparities of each row that are feasible if there are no other rows, and at no
smaller threshold there is a labeling. -/
theorem C121_threshold_of_rows (hg : g.Fresh) (hj : 0 < jobs) (hfit : g.h + jobs ≤ 18446744073709551616) :
    Ok (minimalThreshold (UInt64.ofNat jobs) g) fun r => (∀ y, y < g.h → ∃ R, g.RowFeasibleAt r.2 y R) ∧
      ∀ t L, g.FeasibleAt t L → le r.2 t = true := by
  have h1 := minimalThreshold_mk hg hj hfit
  have h2 := C39_minimal_threshold_partial hg hj hfit
  obtain ⟨r, hr, a1, -, a3, -⟩ := h1
  obtain ⟨r', hr', b⟩ := h2
  rw [hr] at hr'
  cases hr'
  refine ⟨r, hr, solvedAt_rows hg hj hfit a1 a3, fun t L hL => ?_⟩
  by_contra hn
  refine b t ?_ ⟨L, hL⟩
  rw [LawfulFloat.lt_iff]
  simpa using hn

/-- The same with threads that work in turn, in particular with one thread. -/
theorem C121_threshold_in_turn {solve : Solver F} {n : UInt64} (hs : solve.InTurn n) (hg : g.Fresh) (hj : 0 < n.toNat)
    (hfit : g.h + n.toNat ≤ 18446744073709551616) :
    Ok (Par.minimalThreshold solve g) fun r => (∀ y, y < g.h → ∃ R, g.RowFeasibleAt r.2.1 y R) ∧ ∀ t L, g.FeasibleAt t L → le r.2.1 t = true := by
  rw [par_minimalThreshold_inTurn hs hg hj hfit]
  have h1 := C121_threshold_of_rows hg hj hfit
  rw [UInt64.ofNat_toNat, ← par_minimalThreshold_seq] at h1
  obtain ⟨r, hr, h2⟩ := h1
  obtain ⟨q, hq, hr⟩ := bind_eq_ok hr
  obtain ⟨p, t, calls⟩ := q
  cases hr
  exact ⟨_, hq, h2⟩

/-- If there are no other rows, then disparities of the row are a labeling. -/
theorem DisparityGraph.RowFeasibleAt.feasible (hg : g.Fresh) (h1 : g.h = 1) {t : F} {R : ℕ → ℕ} (h : g.RowFeasibleAt t 0 R) : g.FeasibleAt t fun x _ => R x := by
  intro x y hx hy
  obtain rfl : y = 0 := by omega
  obtain ⟨a1, a2, a3⟩ := h x hx
  refine ⟨a1, a2, fun k hk => ?_⟩
  rcases hk.2.2 with ⟨rfl, h0⟩ | ⟨rfl, h0⟩ | ⟨rfl, h0⟩ | ⟨rfl, h0⟩
  · obtain ⟨-, -, b3⟩ := h (x + 1) h0
    obtain ⟨b3, b4⟩ := b3 (Nat.succ_pos x)
    refine ⟨isEdge_symm b3, fun d d' hd => ?_⟩
    have := b4 d' d (isEdge_symm hd)
    rw [edgeQ_fresh hg.phi_zero, edgeQ_fresh hg.phi_zero] at this ⊢
    rw [LawfulFloat.sqr_sub_comm (ofNat (R x)), LawfulFloat.sqr_sub_comm (ofNat d)]
    exact this
  · exact a3 h0
  · omega
  · omega

/-- **C121**: for images of one row the found threshold is the least one at which there is a labeling, unlike in general. -/
theorem C121_one_row (hg : g.Fresh) (hj : 0 < jobs) (hfit : g.h + jobs ≤ 18446744073709551616) (h1 : g.h = 1) :
    Ok (minimalThreshold (UInt64.ofNat jobs) g) fun r => (∃ L, g.FeasibleAt r.2 L) ∧ ∀ t L, g.FeasibleAt t L → le r.2 t = true :=
  (C121_threshold_of_rows hg hj hfit).mono fun r hr => by
    obtain ⟨R, hR⟩ := hr.1 0 (by omega)
    exact ⟨⟨_, hR.feasible hg h1⟩, hr.2⟩

/-- The same for all schedules of any number of threads: the row is processed by one of them. -/
theorem C121_one_row_threads {B : ℕ} {solve : Solver F} {n : UInt64} (hs : solve.Possible B n) (hg : g.Fresh) (hj : 0 < n.toNat)
    (hfit : g.h + n.toNat ≤ 18446744073709551616) (h1 : g.h = 1) :
    Ok (Par.minimalThreshold solve g) fun r => (∃ L, g.FeasibleAt r.2.1 L) ∧ ∀ t L, g.FeasibleAt t L → le r.2.1 t = true := by
  rw [par_minimalThreshold_row hg h1 hj hfit fun m c _ => hs m c]
  obtain ⟨r, hr, a1, a2⟩ := C121_threshold_in_turn (Solver.InTurn.seq 1) hg Nat.one_pos (by rw [h1]; decide)
  obtain ⟨R, hR⟩ := a1 0 (by omega)
  exact ⟨r, hr, ⟨_, hR.feasible hg h1⟩, a2⟩

/-- The graph is solved at the found threshold, and the labeling remains in it, if it is feasible whenever `solve_csp` says that something is. -/
theorem solvedGraph_keeps (hg : g.Fresh) (hj : 0 < jobs) (hfit : g.h + jobs ≤ 18446744073709551616) {L : ℕ → ℕ → ℕ}
    (hL : ∀ p t, Tables g p → SolvedAt (UInt64.ofNat jobs) g p t true → g.FeasibleAt t L) :
    Ok (solvedGraph (UInt64.ofNat jobs) g) fun c => c.disparityGraph = g ∧ c.Valid ∧ c.Proper ∧ Consistent c.w c.h c.E c.Av L := by
  unfold solvedGraph
  refine Ok.bind (minimalThreshold_mk hg hj hfit) ?_
  rintro ⟨p, t⟩ ⟨hp, -, hs, -⟩
  simp only at hp hs
  have hf := hL p t hp hs
  obtain ⟨r, hr, hb⟩ := hs
  obtain ⟨c, hc, a1, a2, a3, a4, a5, -, a7⟩ := start_mk hg hp t
  rw [hc, bind_ok] at hr
  obtain ⟨r', hr', b1, b2, b3⟩ := solveCsp_mk a1 a2 hj (by rw [show c.h = g.h by unfold ConstraintGraph.h; rw [a4]]; exact hfit)
  rw [hr] at hr'
  cases hr'
  have hcons := (feasible_iff_consistent hg a3 a4 a5 a7).2 hf
  obtain ⟨c1, b⟩ := r
  simp only at hb b1 b2 b3
  subst hb
  rcases b3 with ⟨-, b3, -⟩ | ⟨-, -, b3⟩
  · simp only [hc, bind_ok, hr]
    refine Ok.pure ⟨b1.1.trans a4, b2, b1.proper a2 (by rw [b3]; exact sweep_sub _), ?_⟩
    rw [b1.w_eq, b1.h_eq, b1.E_eq, b3]
    exact fun x y hx hy => ⟨sub_sweep (consistent_arc hcons) hcons.sub _ _ _ _ ⟨hx, hy, rfl⟩, (hcons x y hx hy).2⟩
  · cases b3

/-- Suppose the best disparities of pixels are feasible whenever `solve_csp` says that something is. Then they are found. -/
theorem disparityMap_best (hg : g.Fresh) (hj : 0 < jobs) (hfit : g.h + jobs ≤ 18446744073709551616) {L : ℕ → ℕ → ℕ}
    (hL : ∀ p t, Tables g p → SolvedAt (UInt64.ofNat jobs) g p t true → g.FeasibleAt t L)
    (hbest : ∀ x y d, g.IsNode x y d → le (g.nodeQ x y (L x y)) (g.nodeQ x y d) = true ∧ (g.nodeQ x y d = g.nodeQ x y (L x y) → L x y ≤ d)) :
    Ok (disparityMap (UInt64.ofNat jobs) g) (MapOf g L) := by
  unfold disparityMap
  refine Ok.bind (solvedGraph_keeps hg hj hfit hL) ?_
  rintro c ⟨rfl, h2, h3, h4⟩
  have hnode : ∀ x y d, c.Av x y d → c.disparityGraph.IsNode x y d := fun x y d hd => h3 x y d hd
  have hfound := C42_best_labeling_found_partial h2 h3 hj hfit (fun x y d _ => nodeQ_nonneg hg x y d) h4
    fun x y d _ _ hd => hbest x y d (hnode x y d hd)
  obtain ⟨r, hr, e1, e2⟩ := hfound
  obtain ⟨r', hr', f1, f2, f3, f4⟩ := findLabeling_mk h2 h3 hj hfit
  rw [hr] at hr'
  cases hr'
  obtain ⟨c', b⟩ := r
  simp only at e1 e2 f1 f2 f3 f4
  subst e1
  simp only [hr, bind_ok]
  have := buildDisparityMap_of (L := L) f2 (f1.proper h3 f3) (f4 rfl).2.2 (by
    rintro x y d ⟨hx, hy, rfl⟩
    exact (e2 _ _ _).2 ⟨f1.w_eq ▸ hx, f1.h_eq ▸ hy, rfl⟩)
  rw [f1.1] at this
  exact this

end

/-! ## Two levels and weak smoothness -/

section
variable {F : Type} [FloatOps F] [LawfulFloat F] {left right : Image} {c s : F} {jobs : ℕ}

local notation "G" => freshGraph left right 2 c s

/-- At a threshold less than the penalty of different neighbors only zeros are feasible in a row. -/
theorem zeros_below_row {t : F} {y : ℕ} {R : ℕ → ℕ} (hy : y < right.height.toNat) (ht : lt t (stepPenalty s) = true) (h : (G).RowFeasibleAt t y R) :
    ∀ x, x < right.width.toNat → R x = 0 := by
  have step : ∀ x, x + 1 < right.width.toNat → R (x + 1) = R x := by
    intro x hx
    by_contra hne
    have hx' : x < right.width.toNat := by omega
    have h1 := ((h (x + 1) hx).2.2 (by omega)).2 0 0
      ⟨⟨hx, hy, .inr (.inl ⟨rfl, by omega⟩)⟩, ⟨hx, hy, Nat.zero_lt_two, hx⟩, ⟨hx', hy, Nat.zero_lt_two, hx'⟩, ⟨fun _ => Nat.zero_le _, fun _ => Nat.zero_le _⟩⟩
    rw [edge_two_same, LawfulFloat.sub_zero, Nat.add_sub_cancel, edge_two_differ (h (x + 1) hx).1.2.2.1 (h x hx').1.2.2.1 hne] at h1
    rw [not_lt_of_le h1] at ht
    cases ht
  have key : ∀ n, n < right.width.toNat → R (right.width.toNat - 1 - n) = 0 := by
    intro n
    induction n with
    | zero =>
      intro hn
      have h1 : right.width.toNat - 1 < right.width.toNat := by omega
      have h2 : right.width.toNat - 1 + R (right.width.toNat - 1) < right.width.toNat := (h _ h1).1.2.2.2
      rw [Nat.sub_zero]
      omega
    | succ n ih =>
      intro hn
      have := step (right.width.toNat - 1 - (n + 1)) (by omega)
      rw [← this, show right.width.toNat - 1 - (n + 1) + 1 = right.width.toNat - 1 - n by omega]
      exact ih (by omega)
  intro x hx
  have := key (right.width.toNat - 1 - x) (by omega)
  rwa [show right.width.toNat - 1 - (right.width.toNat - 1 - x) = x by omega] at this

/-- Whenever `solve_csp` says that something is feasible, better disparities are. -/
theorem better_solved (hg : (G).Fresh) (hj : 0 < jobs) (hfit : right.height.toNat + jobs ≤ 18446744073709551616) (hweak : SmoothnessWeak left right c s)
    {p : LowestPenalties F} {t : F} (hp : Tables G p) (hsol : SolvedAt (UInt64.ofNat jobs) G p t true) : (G).FeasibleAt t (betterOfTwo left right c) := by
  have ht : le (stepPenalty s) t = true := by
    obtain ⟨x, y, hx, hy, hle⟩ := hweak
    by_contra hn
    obtain ⟨R, hR⟩ := solvedAt_rows hg hj hfit hp hsol y hy
    have hlt : lt t (stepPenalty s) = true := by
      rw [LawfulFloat.lt_iff]
      simpa using hn
    have hx' : x < right.width.toNat := by omega
    have hz := zeros_below_row hy hlt hR x hx'
    have := (hR x hx').2.1 1 ⟨hx', hy, Nat.one_lt_two, hx⟩
    rw [node_penalty_two, node_penalty_two, hz] at this
    exact hn (LawfulFloat.le_trans _ _ _ hle this)
  have hf := better_feasible (left := left) (c := c) hg.smoothness_nonneg hg.width_pos
  intro x y hx hy
  obtain ⟨h1, h2, h3⟩ := hf x y hx hy
  exact ⟨h1, fun d hd => LawfulFloat.le_trans _ _ _ (h2 d hd) ht, fun k hk => ⟨(h3 k hk).1, fun d d' hd =>
    LawfulFloat.le_trans _ _ _ ((h3 k hk).2 d d' hd) ht⟩⟩

/-- They are the ones that are chosen. -/
theorem better_best (x y d : ℕ) (hd : (G).IsNode x y d) : le ((G).nodeQ x y (betterOfTwo left right c x y)) ((G).nodeQ x y d) = true ∧
    ((G).nodeQ x y d = (G).nodeQ x y (betterOfTwo left right c x y) → betterOfTwo left right c x y ≤ d) := by
  rw [node_penalty_two, node_penalty_two]
  refine ⟨betterOfTwo_le hd.2.2.1 hd.2.2.2, fun he => ?_⟩
  have hd2 : d < 2 := hd.2.2.1
  by_contra hn
  have h1 := betterOfTwo_lt (left := left) (right := right) (c := c) x y
  have h2 : betterOfTwo left right c x y = 1 := by omega
  obtain rfl : d = 0 := by omega
  rw [h2] at he
  unfold betterOfTwo at h2
  split_ifs at h2 with h
  have h3 := h.2
  rw [he, LawfulFloat.lt_iff, LawfulFloat.le_refl] at h3
  cases h3

/-- **C120**: with two levels and weak smoothness better disparities are found by one thread. -/
theorem C120_found_map (hg : (G).Fresh) (hj : 0 < jobs) (hfit : right.height.toNat + jobs ≤ 18446744073709551616) (hweak : SmoothnessWeak left right c s) :
    Ok (disparityMap (UInt64.ofNat jobs) G) (MapOf G (betterOfTwo left right c)) :=
  disparityMap_best hg hj hfit (fun _ _ hp hsol => better_solved hg hj hfit hweak hp hsol) better_best

/-- The same for images of one row with all schedules of any number of threads. -/
theorem C120_found_row {B : ℕ} {solve : Solver F} {n : UInt64} (hsolve : solve.Possible B n) (hg : (G).Fresh) (hj : 0 < n.toNat)
    (hfit : right.height.toNat + n.toNat ≤ 18446744073709551616) (h1 : right.height.toNat = 1) (hweak : SmoothnessWeak left right c s) :
    Ok (Par.disparityMap solve G) (MapOf G (betterOfTwo left right c)) := by
  rw [par_disparityMap_row hg h1 hj hfit fun m c _ => hsolve m c]
  exact C120_found_map hg Nat.one_pos (by rw [h1]; decide) hweak

end

/-! ## The program -/

/-- The text is that of the map with two levels, penalties being computed with numbers of `H`. -/
def World.WritesTwoLevels {F : Type} [FloatOps F] (H : Type) [FloatOps H] (world : World F) (cl : CommandLine) (text : Text) : Prop :=
  ∃ (o : Options) (l r : Text) (left right : Image) (levels c s : UInt64) (im : Image), cl = .parsed o ∧ o.leftImage = some l ∧ o.rightImage = some r ∧
    readImage world l = .ok left ∧ readImage world r = .ok right ∧ levelsOption left o.disparityLevels = .ok levels ∧
    weightNumber o.cleanness = .ok c ∧ weightNumber o.smoothness = .ok s ∧ writePgm (some im) = .ok text ∧
    (levels = 2 → TwoLevelMap left right (ofNat c.toNat : H) (ofNat s.toNat) im)

theorem World.Result.two {F H : Type} [FloatOps F] [FloatOps H] [LawfulFloat H] {world : World F} {cl : CommandLine} {out : Outcome}
    {path text : Text} (h : world.Result H cl out path text) : world.WritesTwoLevels H cl text := by
  obtain ⟨-, -, o, l, r, left, right, levels, c, s, im, q1, -, q3, q4, q5, q6, q7, q8, q9, ha, q11, -, -, -, t, hb⟩ := h
  refine ⟨o, l, r, left, right, levels, c, s, im, q1, q3, q4, q5, q6, q7, q8, q9, q11, ?_⟩
  rintro rfl
  exact C120_best_map (LawfulFloat.not_lt_iff.1 ha.2.2.2.2.2.2.2.2.1) ha.2.1.1 ha.2.1.2.1 hb

section
variable {B : Nat} {jobs : UInt64} {world : World Double} {allowed : (Nat → Nat) → Prop}

/-- **C120**. Whatever the images, weights, threads and schedules: if a map with two levels is written, then it consists of zeros, or of disparities that
are the better ones for their pixels, according to the weight of smoothness. Penalties are those computed with `double`. -/
theorem C120_two_levels (hw : world.Reasonable jobs) (hruns : world.Runs B jobs) (hcpu : world.CpuOnly) (cl : CommandLine) (out : Outcome)
    (h : program world cl = .ok out) (path text : Text) (hwr : out.written = some (path, text)) : world.WritesTwoLevels Format.binary64.Num cl text :=
  (World.result_num hw hruns hcpu h hwr).two

/-- Penalties are the exact ones, if weights multiplied by squares of differences of intensities or levels are at most `2^53`. -/
theorem C120_two_levels_exact (hw : world.Reasonable jobs) (hruns : world.Runs B jobs) (hcpu : world.CpuOnly) (cl : CommandLine)
    (hr : ∀ o l r, cl = .parsed o → o.leftImage = some l → o.rightImage = some r → world.InRange 53 o l r) (out : Outcome)
    (h : program world cl = .ok out) (path text : Text) (hwr : out.written = some (path, text)) : world.WritesTwoLevels ℚ cl text :=
  (C92_exact hw hruns hcpu cl hr out h path text hwr).two

/-- The same with devices that compute with `float`, if they are at most `2^24`. -/
theorem C120_two_levels_device (hw : world.Reasonable jobs) (hruns : world.Runs B jobs)
    (hdev : world.Devices (Ieee.convert : Double → Single) allowed) (cl : CommandLine)
    (hr : ∀ o l r, cl = .parsed o → o.leftImage = some l → o.rightImage = some r → world.InRange 24 o l r) (out : Outcome)
    (h : program world cl = .ok out) (path text : Text) (hwr : out.written = some (path, text)) : world.WritesTwoLevels ℚ cl text :=
  (C93_float_device_partial hw hruns hdev cl hr out h path text hwr).two

end

section
variable {F : Type} [FloatOps F] [LawfulFloat F] {jobs : UInt64} {world : World F} {o : Options} {l r p : Text} {g : DisparityGraph F} {L : ℕ → ℕ → ℕ}

/-- If threads that work in turn find the labeling, then the program writes it. -/
theorem World.writes_in_turn (hw : world.Reasonable jobs) (hs : world.solve.InTurn jobs) (hl : o.leftImage = some l) (hr : o.rightImage = some r)
    (hp : o.outputImage = some p) (hnone : o.parallel = none) (hg : readGraph world o l r = .ok g) (hn : ∀ x y, x < g.w → y < g.h → g.IsNode x y (L x y))
    (h : Ok (disparityMap jobs g) (MapOf g L)) :
    ∃ out im text, program world (.parsed o) = .ok out ∧ out.exit = 0 ∧ out.err = [] ∧ MapOf g L im ∧ writePgm (some im) = .ok text ∧
      out.written = if world.writable p then some (p, text) else none := by
  obtain ⟨left, right, levels, cleanness, smoothness, -, -, -, -, -, ha, hls, hrs, hsm, rfl⟩ := readGraph_ok hw hg
  obtain ⟨f1, f2, f3⟩ := fresh_limits hw ha hls hrs hsm
  obtain ⟨im, hm, him⟩ := h
  rw [← par_disparityMap_inTurn hs f1 hw.jobs_pos f2, disparityMap_labeled] at hm
  obtain ⟨m1, m2⟩ := (him.sized hn).meaningful f1 f3
  obtain ⟨text, ht, -⟩ := writePgm_mk m1 m2
  unfold program
  simp only [hl, hr, hp, hnone, chooseParallelism]
  unfold compute
  rw [hg, bind_ok, hm, bind_ok, ht, bind_ok]
  refine ⟨_, im, text, rfl, rfl, rfl, him, ht, ?_⟩
  unfold World.stored
  simp only [hw.room]

end

section
variable {B : Nat} {world : World Double} {allowed : (Nat → Nat) → Prop} {o : Options} {l r p : Text} {g : DisparityGraph Double} {left right : Image}

/-- **C120**: one thread always finds the map with two levels, if smoothness is weak. -/
theorem C120_program (hw : world.Reasonable 1) (hruns : world.Runs B 1) (hdev : world.Devices (Ieee.convert : Double → Single) allowed)
    (hl : o.leftImage = some l) (hr : o.rightImage = some r) (hp : o.outputImage = some p) (hnone : o.parallel = none)
    (hg : readGraph world o l r = .ok g) (hleft : readImage world l = .ok left) (hright : readImage world r = .ok right)
    (hlevels : levelsOption left o.disparityLevels = .ok 2) {c s : UInt64} (hc : weightNumber o.cleanness = .ok c) (hsm : weightNumber o.smoothness = .ok s)
    (hweak : SmoothnessWeak left right (ofNat c.toNat : Format.binary64.Num) (ofNat s.toNat)) :
    ∃ out im text, program world (.parsed o) = .ok out ∧ out.exit = 0 ∧ out.err = [] ∧
      TwoLevelMap left right (ofNat c.toNat : Format.binary64.Num) (ofNat s.toNat) im ∧ writePgm (some im) = .ok text ∧
      out.written = if world.writable p then some (p, text) else none := by
  obtain ⟨world', h1, h2, -, h3⟩ := World.pull carrier_double hruns hdev
  have hw' : world'.Reasonable 1 := ⟨h1.memory ▸ hw.memory, hw.jobs_pos, hw.jobs_small, h1.room ▸ hw.room⟩
  have hsim := readGraph_transfer carrier_double h1 o l r (world'.inRange_192 o l r)
  rw [hg] at hsim
  cases hg' : readGraph world' o l r with
  | error e => rw [hg'] at hsim; exact hsim.elim
  | ok g' =>
  obtain ⟨left', right', levels, c', s', q1, q2, q3, q4, q5, ha, hls, hrs, hsmall, rfl⟩ := readGraph_ok hw' hg'
  have hread : ∀ t, readImage world' t = readImage world t := fun t => by
    unfold readImage
    rw [h1.file, h1.memory]
  rw [hread, hleft] at q1
  rw [hread, hright] at q2
  cases q1
  cases q2
  rw [hlevels] at q3
  cases q3
  rw [weightOption_eq, hc] at q4
  rw [weightOption_eq, hsm] at q5
  cases q4
  cases q5
  obtain ⟨f1, f2, f3⟩ := fresh_limits hw' ha hls hrs hsmall
  have hturn : world'.solve.InTurn 1 := h2.elim Solver.Possible.inTurn fun h => h ▸ Solver.InTurn.seq 1
  have hmap := C120_found_map f1 Nat.one_pos f2 hweak
  have hbetter := better_feasible (left := left) (c := (ofNat c.toNat : Format.binary64.Num)) f1.smoothness_nonneg f1.width_pos
  obtain ⟨out, im, text, e1, e2, e3, e4, e5, e6⟩ := World.writes_in_turn hw' hturn hl hr hp hnone hg' (fun x y hx hy => (hbetter x y hx hy).1) hmap
  refine ⟨out, im, text, ?_, e2, e3, ?_, e5, ?_⟩
  · rw [program_transfer carrier_double h1 _ fun o' l r _ _ _ => world'.inRange_192 o' l r]
    exact e1
  · exact ⟨e4.width, e4.height, fun _ x y hx hy => e4.value x y hx hy, fun h => absurd hweak h⟩
  · rw [e6, h1.writable]

end

/-- What exact penalties are: smoothness is weak, if it is at most the loss of some pixel. -/
theorem smoothnessWeak_exact (left right : Image) (c s : ℕ) : SmoothnessWeak left right (c : ℚ) (s : ℚ) ↔
    ∃ x y, x + 1 < right.width.toNat ∧ y < right.height.toNat ∧ (s : ℤ) ≤ c * (((right.at x y : ℤ) - left.at x y) ^ 2 - ((right.at x y : ℤ) - left.at (x + 1) y) ^ 2) := by
  unfold SmoothnessWeak
  refine exists_congr fun x => exists_congr fun y => and_congr_right fun _ => and_congr_right fun _ => ?_
  show decide ((s : ℚ) * (((1 : ℕ) - (0 : ℕ) : ℚ) * ((1 : ℕ) - (0 : ℕ))) ≤
    c * (((right.at x y : ℚ) - left.at (x + 0) y) * (right.at x y - left.at (x + 0) y)) -
    c * (((right.at x y : ℚ) - left.at (x + 1) y) * (right.at x y - left.at (x + 1) y))) = true ↔ _
  rw [decide_eq_true_iff, ← Int.cast_le (R := ℚ)]
  push_cast
  rw [add_zero]
  constructor <;> intro h <;> nlinarith

/-! ## Non-vacuity -/

/-- The pixel in the middle loses 4 with disparity 0 instead of 1. With smoothness 4 each pixel has the better disparity, and with smoothness 5 there
are zeros only. -/
example : SmoothnessWeak ⟨3, 1, 9, #[1, 2, 4]⟩ ⟨3, 1, 9, #[1, 4, 4]⟩ ((1 : ℕ) : ℚ) ((4 : ℕ) : ℚ) ∧
    ¬ SmoothnessWeak ⟨3, 1, 9, #[1, 2, 4]⟩ ⟨3, 1, 9, #[1, 4, 4]⟩ ((1 : ℕ) : ℚ) ((5 : ℕ) : ℚ) ∧
    program (imagesWorld "P2 3 1 9 1 2 4" "P2 3 1 9 1 4 4" (fun _ => solveCsp 1) none) (.parsed (imagesOptions "2" "1" "4" none)) =
      .ok { exit := 0, written := some (bytes "o", bytes "P2\n3 1\n2\n0 1 0\n") } ∧
    program (imagesWorld "P2 3 1 9 1 2 4" "P2 3 1 9 1 4 4" (fun _ => solveCsp 1) none) (.parsed (imagesOptions "2" "1" "5" none)) =
      .ok { exit := 0, written := some (bytes "o", bytes "P2\n3 1\n2\n0 0 0\n") } := by
  refine ⟨(smoothnessWeak_exact _ _ 1 4).2 ⟨1, 0, by decide, by decide, by decide +kernel⟩, fun h => ?_, by decide +kernel, by decide +kernel⟩
  obtain ⟨x, y, hx, hy, h⟩ := (smoothnessWeak_exact _ _ 1 5).1 h
  obtain rfl : y = 0 := Nat.lt_one_iff.1 hy
  have key : ∀ x : Fin 2, ¬ (((5 : ℕ) : ℤ) ≤ (1 : ℕ) * ((((Image.mk 3 1 9 #[1, 4, 4]).at x 0 : ℤ) - (Image.mk 3 1 9 #[1, 2, 4]).at x 0) ^ 2 -
    (((Image.mk 3 1 9 #[1, 4, 4]).at x 0 : ℤ) - (Image.mk 3 1 9 #[1, 2, 4]).at (x + 1) 0) ^ 2)) := by decide +kernel
  exact key ⟨x, Nat.lt_of_succ_lt_succ hx⟩ h

/-- Strong smoothness is different: zeros are the best map, the pixel in the middle losing 35 with disparity 0 instead of 1, but one thread
does not find it with smoothness 36, and finds better disparities with smoothness 35. -/
theorem C120_strong_not_found :
    program (imagesWorld "P2 3 1 9 1 2 9" "P2 3 1 9 2 8 8" (fun _ => solveCsp 1) none) (.parsed (imagesOptions "2" "1" "36" none)) =
      .ok { exit := 0, err := [.logicError "Cannot find labeling. This should not ever happen. Refer to the developers."] } ∧
    program (imagesWorld "P2 3 1 9 1 2 9" "P2 3 1 9 2 8 8" (fun _ => solveCsp 1) none) (.parsed (imagesOptions "2" "1" "35" none)) =
      .ok { exit := 0, written := some (bytes "o", bytes "P2\n3 1\n2\n1 1 0\n") } := ⟨by decide +kernel, by decide +kernel⟩

/-- Rows of two pixels whose disparities 1 and 0 differ are feasible at the threshold 1, and are not at 0. -/
example : (freshGraph ⟨2, 1, 9, #[5, 4]⟩ ⟨2, 1, 9, #[4, 4]⟩ 2 (1 : ℚ) 1).RowFeasibleAt 1 0 (fun x => 1 - x) ∧
    ¬ (freshGraph ⟨2, 1, 9, #[5, 4]⟩ ⟨2, 1, 9, #[4, 4]⟩ 2 (1 : ℚ) 1).RowFeasibleAt 0 0 (fun x => 1 - x) := by
  constructor
  · intro x hx
    have key : ∀ x : Fin 2, ((freshGraph ⟨2, 1, 9, #[5, 4]⟩ ⟨2, 1, 9, #[4, 4]⟩ 2 (1 : ℚ) 1).IsNode x 0 (1 - x)) := by
      unfold DisparityGraph.IsNode; decide
    have hx : x < 2 := hx
    refine ⟨key ⟨x, hx⟩, fun d hd => ?_, fun h0 => ⟨?_, fun e e' he => ?_⟩⟩
    · have hd2 : d < 2 := hd.2.2.1
      interval_cases x <;> interval_cases d <;> decide +kernel
    · obtain rfl : x = 1 := by omega
      exact ⟨⟨by decide, by decide, .inr (.inl ⟨rfl, by decide⟩)⟩, key 1, key 0, ⟨fun _ => by decide, fun _ => by decide⟩⟩
    · obtain rfl : x = 1 := by omega
      have h1 : e < 2 := he.2.1.2.2.1
      have h2 : e' < 2 := he.2.2.1.2.2.1
      interval_cases e <;> interval_cases e' <;> decide +kernel
  · intro h
    have := ((h 1 (by decide)).2.2 (by decide)).2 0 0 ⟨⟨by decide, by decide, .inr (.inl ⟨rfl, by decide⟩)⟩,
      ⟨by decide, by decide, by decide, by decide⟩, ⟨by decide, by decide, by decide, by decide⟩, ⟨fun _ => by decide, fun _ => by decide⟩⟩
    exact absurd this (by decide +kernel)

end SP
