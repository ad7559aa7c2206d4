import Verif.Props.Tradeoff
import Verif.Props.TwoLevels
/-!
# C124: shifted images

The right image is the left one shifted by `k` columns, and other matches are bad enough. Then the map is `k`, but for the last `k` columns: there the match is
the last pixel of the row, since neither greater disparities exist nor may matches go backwards.
-/
namespace SP
open FloatOps ConstraintGraph Gpu
set_option maxRecDepth 1000000
set_option linter.unusedSectionVars false

/-- The map of a shift: `k`, as long as there are that many columns. -/
def staircase (width k : ℕ) (x _y : ℕ) : ℕ := min k (width - 1 - x)

/-- The right image is the left one shifted by `k` columns. In the last `k` columns, where nothing is known, squares of differences from the last pixel of the
left row are at most `a`. -/
structure Shifted (left right : Image) (k : ℕ) (a : ℚ) : Prop where
  nonneg : 0 ≤ a
  same : ∀ x y, x + k < right.width.toNat → y < right.height.toNat → right.at x y = left.at (x + k) y
  last : ∀ x y, right.width.toNat ≤ x + k → x < right.width.toNat → y < right.height.toNat →
    ((right.at x y : ℚ) - left.at (right.width.toNat - 1) y) ^ 2 ≤ a

/-- Matches with other disparities are so bad that the penalty, cleanness `c` times the square of the difference, exceeds `b`. -/
def Distinct (left right : Image) (levels k c : ℕ) (b : ℚ) : Prop :=
  ∀ x y d, x + k < right.width.toNat → y < right.height.toNat → x + d < right.width.toNat → d < levels → d ≠ k →
    b < c * ((right.at x y : ℚ) - left.at (x + d) y) ^ 2

section
variable {left right im : Image} {levels : UInt64} {k c s : ℕ} {a b : ℚ}

theorem staircase_labels (hk : k < levels.toNat) : Labels right levels.toNat (staircase right.width.toNat k) := by
  refine ⟨fun x y hx hy => ?_, fun x y hx hy => ?_⟩ <;> unfold staircase <;> omega

theorem staircase_rough : Rough right (staircase right.width.toNat k) 1 := by
  refine ⟨fun x y hx hy => ?_, fun x y hx hy => ?_⟩
  · obtain h | h : staircase right.width.toNat k x y = staircase right.width.toNat k (x + 1) y ∨
        staircase right.width.toNat k x y = staircase right.width.toNat k (x + 1) y + 1 := by
      unfold staircase
      omega
    · rw [h, sub_self]
      norm_num
    · rw [h]
      push_cast
      ring_nf
      exact le_rfl
  · show ((staircase right.width.toNat k x y : ℚ) - staircase right.width.toNat k x y) ^ 2 ≤ 1
    rw [sub_self]
    norm_num

theorem Shifted.misfit (h : Shifted left right k a) : Misfit left right levels.toNat (staircase right.width.toNat k) a := by
  intro x y d hx hy _
  have h0 := h.nonneg
  have h2 := sq_nonneg ((right.at x y : ℚ) - left.at (x + d) y)
  rcases Nat.lt_or_ge (x + k) right.width.toNat with hk | hk
  · have e : staircase right.width.toNat k x y = k := by
      unfold staircase
      omega
    rw [e, h.same x y hk hy, sub_self]
    rw [h.same x y hk hy] at h2
    norm_num
    linarith
  · have e : x + staircase right.width.toNat k x y = right.width.toNat - 1 := by
      unfold staircase
      omega
    rw [e]
    have := h.last x y hk (by omega) hy
    linarith

/-- A map that is not worse is that of the shift. -/
theorem Shifted.map (h : Shifted left right k a) (hd : Distinct left right levels.toNat k c b) (hk : k < levels.toNat) (hlw : levels.toNat ≤ right.width.toNat)
    (hw : im.width = right.width) (hh : im.height = right.height) (hl : im.maxValue = levels)
    (hL : Labels right levels.toNat fun x y => im.at x y) (hwi : im.Within left right c s b) :
    ∀ x y, x < right.width.toNat → y < right.height.toNat → im.at x y = staircase right.width.toNat k x y := by
  have inner : ∀ x y, x + k < right.width.toNat → y < right.height.toNat → im.at x y = k := by
    intro x y hx hy
    by_contra hne
    obtain ⟨h1, h2⟩ := hL.node x y (by omega) hy
    have h3 := hd x y _ hx hy h2 h1 hne
    have h4 := hwi.pixel x y k (hw ▸ hx) (hh ▸ hy) (hl ▸ hk)
    rw [h.same x y hx hy, sub_self] at h4
    rw [h.same x y hx hy] at h3
    norm_num at h4
    exact absurd h3 (not_lt.2 h4)
  have outer : ∀ n y, n ≤ k → y < right.height.toNat → k ≤ im.at (right.width.toNat - 1 - k + n) y + n := by
    intro n y hn hy
    induction n with
    | zero => exact (inner _ y (by omega) hy).ge
    | succ n ih =>
      have h1 := ih (by omega)
      have h2 := hL.order (right.width.toNat - 1 - k + n) y (by omega) hy
      show k ≤ im.at (right.width.toNat - 1 - k + n + 1) y + (n + 1)
      omega
  intro x y hx hy
  unfold staircase
  rcases Nat.lt_or_ge (x + k) right.width.toNat with hxk | hxk
  · rw [inner x y hxk hy]
    omega
  · have h1 := outer (x - (right.width.toNat - 1 - k)) y (by omega) hy
    rw [show right.width.toNat - 1 - k + (x - (right.width.toNat - 1 - k)) = x by omega] at h1
    have h2 := (hL.node x y hx hy).2
    omega

end

/-! ## The program -/

/-- If the images are shifted by `k` columns and other matches are bad (but for the part `part` of the largest penalty), then the text is that of the map of the
shift. -/
def World.ShiftFound {F : Type} [FloatOps F] (part : ℚ) (world : World F) (cl : CommandLine) (text : Text) : Prop :=
  ∃ (o : Options) (l r : Text) (left right : Image) (levels c s : UInt64) (im : Image), cl = .parsed o ∧ o.leftImage = some l ∧ o.rightImage = some r ∧
    readImage world l = .ok left ∧ readImage world r = .ok right ∧ levelsOption left o.disparityLevels = .ok levels ∧
    weightNumber o.cleanness = .ok c ∧ weightNumber o.smoothness = .ok s ∧ writePgm (some im) = .ok text ∧
    im.width = right.width ∧ im.height = right.height ∧ im.maxValue = levels ∧
    ∀ k a, k < levels.toNat → Shifted left right k a →
      Distinct left right levels.toNat k c.toNat (max (c.toNat * a) s.toNat + part * largestPenalty left.maxValue.toNat levels c.toNat s.toNat) →
      ∀ x y, x < right.width.toNat → y < right.height.toNat → im.at x y = staircase right.width.toNat k x y

section
variable {F : Type} [FloatOps F] {world : World F} {jobs : UInt64} {cl : CommandLine} {out : Outcome} {path text : Text}

theorem World.NotWorse.shift {part : ℚ} (h : world.NotWorse part cl text) : world.ShiftFound part cl text := by
  obtain ⟨o, l, r, left, right, levels, c, s, im, q1, q2, q3, q4, q5, q6, q7, q8, q9, q10, q11, q12, hlw, hL, h⟩ := h
  refine ⟨o, l, r, left, right, levels, c, s, im, q1, q2, q3, q4, q5, q6, q7, q8, q9, q10, q11, q12, fun k a hk hs hd => ?_⟩
  have := (h _ a 1 (staircase_labels hk) hs.misfit staircase_rough).1
  rw [mul_one] at this
  exact hs.map hd hk hlw q10 q11 q12 hL this

end

section
variable {B : Nat} {jobs : UInt64} {world : World Double} {allowed : (Nat → Nat) → Prop}

/-- **C124**. If the images are shifted, other matches are bad, and a map is written, then it is that of the shift, whatever the weights, threads and schedules. -/
theorem C124_shift (hw : world.Reasonable jobs) (hruns : world.Runs B jobs) (hcpu : world.CpuOnly) (cl : CommandLine) (out : Outcome)
    (h : program world cl = .ok out) (path text : Text) (hwr : out.written = some (path, text)) : world.ShiftFound (1 / 2 ^ 47) cl text :=
  (C123_not_worse hw hruns hcpu cl out h path text hwr).shift

/-- The same with `float` on devices. -/
theorem C124_shift_device (hw : world.Reasonable jobs) (hruns : world.Runs B jobs)
    (hdev : world.Devices (Ieee.convert : Double → Single) allowed) (cl : CommandLine) (out : Outcome)
    (h : program world cl = .ok out) (path text : Text) (hwr : out.written = some (path, text)) : world.ShiftFound (1 / 2 ^ 19) cl text :=
  (C123_not_worse_device hw hruns hdev cl out h path text hwr).shift

/-- Without errors, if weights multiplied by squares of differences of intensities or levels are at most `2^53`. -/
theorem C124_shift_exact (hw : world.Reasonable jobs) (hruns : world.Runs B jobs) (hcpu : world.CpuOnly) (cl : CommandLine)
    (hr : ∀ o l r, cl = .parsed o → o.leftImage = some l → o.rightImage = some r → world.InRange 53 o l r) (out : Outcome)
    (h : program world cl = .ok out) (path text : Text) (hwr : out.written = some (path, text)) : world.ShiftFound 0 cl text :=
  (C123_not_worse_exact hw hruns hcpu cl hr out h path text hwr).shift

/-- The same with `float` on devices, if they are at most `2^24`. -/
theorem C124_shift_device_exact (hw : world.Reasonable jobs) (hruns : world.Runs B jobs)
    (hdev : world.Devices (Ieee.convert : Double → Single) allowed) (cl : CommandLine)
    (hr : ∀ o l r, cl = .parsed o → o.leftImage = some l → o.rightImage = some r → world.InRange 24 o l r) (out : Outcome)
    (h : program world cl = .ok out) (path text : Text) (hwr : out.written = some (path, text)) : world.ShiftFound 0 cl text :=
  (C123_not_worse_device_exact hw hruns hdev cl hr out h path text hwr).shift

end

/-! ## One thread finds the map -/

section
variable {w h : Nat} {E : EdgeRel} {S : NodeSet}

/-- Each node that is left after all the pixels have been processed has a labeling of the part of its row to the left. -/
theorem sweep_prefix {jobs : Nat} (hj : 0 < jobs) {y : Nat} (hy : y < h) : ∀ x d, x < w → sweep w h E (solveOrder w h jobs) S x y d →
    ∃ R : Nat → Nat, R x = d ∧ ∀ x', x' ≤ x → S x' y (R x') ∧ (0 < x' → E x' y 1 (R x') (R (x' - 1))) := by
  obtain ⟨ps, qs, e, hps, hqs⟩ := solveOrder_split (w := w) hj hy
  have hT : ∀ x d, x < w → sweep w h E (solveOrder w h jobs) S x y d →
      S x y d ∧ (0 < x → ∃ d', sweep w h E (solveOrder w h jobs) S (x - 1) y d' ∧ E x y 1 d d') := by
    intro x d hx hd
    rw [e, sweep_append, sweep_append] at hd ⊢
    rw [sweep_other (hqs x)] at hd
    obtain ⟨h1, h2⟩ := sweep_left (Nat.le_refl w) hy x d hx hd
    refine ⟨(sweep_other (hps x) d).1 h1, fun h0 => ?_⟩
    obtain ⟨d', h3, h4⟩ := h2 h0
    exact ⟨d', (sweep_other (hqs (x - 1)) d').2 h3, h4⟩
  intro x
  induction x with
  | zero =>
    intro d hx hd
    refine ⟨fun _ => d, rfl, fun x' hx' => ?_⟩
    obtain rfl : x' = 0 := by omega
    exact ⟨(hT 0 d hx hd).1, fun h => absurd h (by omega)⟩
  | succ x ih =>
    intro d hx hd
    obtain ⟨h1, h2⟩ := hT (x + 1) d hx hd
    obtain ⟨d', h3, h4⟩ := h2 (by omega)
    obtain ⟨R, h5, h6⟩ := ih d' (by omega) h3
    refine ⟨fun x' => if x' = x + 1 then d else R x', by simp, fun x' hx' => ?_⟩
    rcases Nat.lt_or_ge x x' with h | h
    · obtain rfl : x' = x + 1 := by omega
      simp only [if_true, Nat.add_sub_cancel]
      rw [if_neg (by omega), h5]
      exact ⟨h1, fun _ => h4⟩
    · simp only
      rw [if_neg (by omega), if_neg (by omega)]
      exact h6 x' h

end

section
variable {F : Type} [FloatOps F] [LawfulFloat F] {g : DisparityGraph F} {jobs : ℕ} {L : ℕ → ℕ → ℕ} {T : F}

/-- Nodes of `L` are the only ones that can be reached from the beginning of a row, if nodes worse than others by more than the threshold are not used. -/
def DisparityGraph.OnlyAt (g : DisparityGraph F) (t : F) (L : ℕ → ℕ → ℕ) : Prop :=
  ∀ (y n : ℕ) (R : ℕ → ℕ), y < g.h → n < g.w → (∀ x, x ≤ n → g.IsNode x y (R x) ∧ (∀ d, g.IsNode x y d → le (sub (g.nodeQ x y (R x)) (g.nodeQ x y d)) t = true) ∧
    (0 < x → g.IsEdge x y 1 (R x) (R (x - 1)))) → R n = L n y

/-- For some threshold `L` is feasible, its nodes are the only ones, and it is feasible at smaller thresholds whenever `solve_csp` says that something is. -/
def DisparityGraph.Forced (g : DisparityGraph F) (jobs : ℕ) (L : ℕ → ℕ → ℕ) : Prop :=
  ∃ T, g.FeasibleAt T L ∧ g.OnlyAt T L ∧ ∀ p t, le t T = true → Tables g p → SolvedAt (UInt64.ofNat jobs) g p t true → g.FeasibleAt t L

/-- If `L` is the only labeling and its rows are equal, then it is feasible whenever `solve_csp` says that something is. -/
theorem only_solved (hg : g.Fresh) (hj : 0 < jobs) (hfit : g.h + jobs ≤ 18446744073709551616) (hT : g.FeasibleAt T L) (honly : g.OnlyAt T L)
    (hrows : ∀ x y, L x y = L x 0) {p : LowestPenalties F} {t : F} (ht : le t T = true) (hp : Tables g p)
    (hsol : SolvedAt (UInt64.ofNat jobs) g p t true) : g.FeasibleAt t L := by
  have hrow := solvedAt_rows hg hj hfit hp hsol
  have heq : ∀ y, y < g.h → g.RowFeasibleAt t y fun x => L x y := by
    intro y hy
    obtain ⟨R, hR⟩ := hrow y hy
    have e : ∀ n, n < g.w → R n = L n y := fun n hn => honly y n R hy hn fun x hx => by
      obtain ⟨h1, h2, h3⟩ := hR x (by omega)
      exact ⟨h1, fun d hd => LawfulFloat.le_trans _ _ _ (h2 d hd) ht, fun h0 => (h3 h0).1⟩
    intro x hx
    have := hR x hx
    rw [e x hx] at this
    refine ⟨this.1, this.2.1, fun h0 => ?_⟩
    have h3 := this.2.2 h0
    rw [e (x - 1) (by omega)] at h3
    exact h3
  intro x y hx hy
  obtain ⟨a1, a2, a3⟩ := heq y hy x hx
  refine ⟨a1, a2, fun k hk => ⟨((hT x y hx hy).2.2 k hk).1, fun d d' hd => ?_⟩⟩
  have hzero : L x y = L (nbx x k) (nby y k) → le (sub (g.edgeQ x y k (L x y) (L (nbx x k) (nby y k))) (g.edgeQ x y k d d')) t = true := by
    intro e
    have h0 : le zero t = true := by
      have := a2 _ a1
      rwa [LawfulFloat.sub_self] at this
    rw [← e]
    refine LawfulFloat.le_trans _ _ _ ?_ h0
    have h1 : g.edgeQ x y k (L x y) (L x y) = zero := by
      rw [edgeQ_fresh hg.phi_zero]
      rw [LawfulFloat.sub_self, show sqr (zero : F) = zero from LawfulFloat.mul_zero _, LawfulFloat.mul_zero]
    rw [h1]
    have := LawfulFloat.sub_mono _ _ (g.edgeQ x y k d d') (edgeQ_nonneg hg x y k d d')
    rwa [LawfulFloat.sub_self] at this
  rcases hk.2.2 with ⟨rfl, h0⟩ | ⟨rfl, h0⟩ | ⟨rfl, h0⟩ | ⟨rfl, h0⟩
  · obtain ⟨-, -, b3⟩ := heq y hy (x + 1) h0
    obtain ⟨b3, b4⟩ := b3 (Nat.succ_pos x)
    have := b4 d' d (isEdge_symm hd)
    rw [edgeQ_fresh hg.phi_zero, edgeQ_fresh hg.phi_zero] at this ⊢
    rw [LawfulFloat.sqr_sub_comm (ofNat (L x y)), LawfulFloat.sqr_sub_comm (ofNat d)]
    exact this
  · exact (a3 h0).2 d d' hd
  · exact hzero ((hrows _ _).trans (hrows _ _).symm)
  · exact hzero ((hrows _ _).trans (hrows _ _).symm)

/-- Only nodes of `L` are left in the graph solved at the found threshold. -/
theorem solvedGraph_only (hg : g.Fresh) (hj : 0 < jobs) (hfit : g.h + jobs ≤ 18446744073709551616) (hL : g.Forced jobs L) :
    Ok (solvedGraph (UInt64.ofNat jobs) g) fun c => c.disparityGraph = g ∧ c.Valid ∧ c.Proper ∧ Consistent c.w c.h c.E c.Av L ∧
      ∀ x y d, c.Av x y d → d = L x y := by
  obtain ⟨T, hT, honly, hsolved⟩ := hL
  obtain ⟨⟨p, t⟩, hm, hp, -, hs, -⟩ := minimalThreshold_mk hg hj hfit
  obtain ⟨q, hq, -, hleast⟩ := C121_threshold_of_rows hg hj hfit
  rw [hm] at hq
  cases hq
  have ht : le t T = true := hleast T L hT
  simp only at hp hs
  have hf := hsolved p t ht hp hs
  unfold solvedGraph
  obtain ⟨r, hr, hb⟩ := hs
  obtain ⟨c, hc, a1, a2, a3, a4, a5, -, a7⟩ := start_mk hg hp t
  have eh : c.h = g.h := by unfold ConstraintGraph.h; rw [a4]
  have ew : c.w = g.w := by unfold ConstraintGraph.w; rw [a4]
  rw [hc, bind_ok] at hr
  obtain ⟨r', hr', b1, b2, b3⟩ := solveCsp_mk a1 a2 hj (by rw [eh]; exact hfit)
  rw [hr] at hr'
  cases hr'
  have hcons := (feasible_iff_consistent hg a3 a4 a5 a7).2 hf
  obtain ⟨c1, b⟩ := r
  simp only at hb b1 b2 b3
  subst hb
  rcases b3 with ⟨-, b3, -⟩ | ⟨-, -, b3⟩
  · simp only [hm, hc, bind_ok, hr]
    have hp1 := b1.proper a2 (by rw [b3]; exact sweep_sub _)
    refine Ok.pure ⟨b1.1.trans a4, b2, hp1, ?_, fun x y d hd => ?_⟩
    · rw [b1.w_eq, b1.h_eq, b1.E_eq, b3]
      exact fun x y hx hy => ⟨sub_sweep (consistent_arc hcons) hcons.sub _ _ _ _ ⟨hx, hy, rfl⟩, (hcons x y hx hy).2⟩
    · have hn := hp1 x y d hd
      rw [b1.1, a4] at hn
      have hx : x < g.w := hn.1
      have hy : y < g.h := hn.2.1
      rw [b3] at hd
      rw [ew, eh] at hd
      obtain ⟨R, rfl, hR⟩ := sweep_prefix hj hy x d hx hd
      refine honly y x R hy hx fun x' hx' => ?_
      obtain ⟨h1, h2⟩ := hR x' hx'
      obtain ⟨h3, h4⟩ := (a7 _ _ _).1 h1
      exact ⟨h3, fun d hd => LawfulFloat.le_trans _ _ _ ((node_iff hg h3).1 h4 d hd) ht, fun h0 =>
        ((edge_iff hg a3 a4 a5 ⟨by omega, hy, .inr (.inl ⟨rfl, h0⟩)⟩).1 (h2 h0)).1⟩
  · cases b3

/-- The only labeling is found. -/
theorem disparityMap_only (hg : g.Fresh) (hj : 0 < jobs) (hfit : g.h + jobs ≤ 18446744073709551616) (hL : g.Forced jobs L) : Ok (disparityMap (UInt64.ofNat jobs) g) (MapOf g L) := by
  unfold disparityMap
  refine Ok.bind (solvedGraph_only hg hj hfit hL) ?_
  rintro c ⟨rfl, h2, h3, h4, h5⟩
  have hfound := C42_best_labeling_found_partial h2 h3 hj hfit (fun x y d _ => nodeQ_nonneg hg x y d) h4
    fun x y d _ _ hd => by
      obtain rfl := h5 x y d hd
      exact ⟨LawfulFloat.le_refl _, fun _ => le_rfl⟩
  obtain ⟨r, hr, e1, e2⟩ := hfound
  obtain ⟨r', hr', f1, f2, f3, f4⟩ := findLabeling_mk h2 h3 hj hfit
  rw [hr] at hr'
  cases hr'
  obtain ⟨c', b⟩ := r
  simp only at e1 e2 f1 f2 f3 f4
  subst e1
  simp only [hr, bind_ok]
  have := buildDisparityMap_of (L := L) f2 (f1.proper h3 f3) (f4 rfl).2.2 (by
    rintro x y d ⟨hx, hy, rfl⟩
    exact (e2 _ _ _).2 ⟨f1.w_eq ▸ hx, f1.h_eq ▸ hy, rfl⟩)
  rw [f1.1] at this
  exact this

end

section
variable {F : Type} [FloatOps F] [LawfulFloat F] {ψ : F → ℚ} {P Q : F → Prop} {i : ℕ} {left right : Image} {levels : UInt64} {k c s jobs : ℕ} {a : ℚ}

/-- At some threshold there is no other labeling. -/
theorem shift_forced (car : Carrier ψ P i) (hQ : ∀ a b, P a → P b → Q (sub a b)) (hcut : Cut ψ Q) (hc : c ≤ 2 ^ i) (hs : s ≤ 2 ^ i)
    (hin : FromInput i (freshGraph left right levels (ofNat c : F) (ofNat s))) (hg : (freshGraph left right levels (ofNat c : F) (ofNat s)).Fresh)
    (hgq : (freshGraph left right levels (ofNat c : ℚ) (ofNat s)).Fresh) (hj : 0 < jobs) (hfit : right.height.toNat + jobs ≤ 18446744073709551616)
    (hk : k < levels.toNat) (hlw : levels.toNat ≤ right.width.toNat) (h : Shifted left right k a)
    (hd : Distinct left right levels.toNat k c (max (c * a) s)) :
    (freshGraph left right levels (ofNat c : F) (ofNat s)).Forced jobs (staircase right.width.toNat k) := by
  have hmap := fresh_map (F := F) car (left := left) (right := right) (levels := levels) hc hs
  have hq := (staircase_labels (right := right) hk).feasible hgq h.misfit staircase_rough (le_max_left _ _) (by rw [mul_one]; exact le_max_right (c * a) (s : ℚ))
  rw [← hmap] at hq
  rcases hcut (max (c * a) s) with hno | ⟨t, h1, h2⟩
  · exfalso
    obtain ⟨n1, n2, -⟩ := hq 0 0 hg.width_pos hg.height_pos
    have := n2 _ n1
    obtain ⟨p1, e1⟩ := hin.nodeQ car 0 0 (staircase right.width.toNat k 0 0)
    rw [e1, ← car.sub _ _ p1 p1, hno _ (hQ _ _ p1 p1)] at this
    cases this
  · have hfeas := hin.feasible car (fun a b ha hb => h1 _ (hQ a b ha hb)) hq
    suffices honly : (freshGraph left right levels (ofNat c : F) (ofNat s)).OnlyAt t (staircase right.width.toNat k) from
      ⟨t, hfeas, honly, fun p t' ht hp hs => only_solved hg hj hfit hfeas honly (fun _ _ => rfl) ht hp hs⟩
    intro y n R hy hn hR
    change y < right.height.toNat at hy
    change n < right.width.toNat at hn
    have inner : ∀ x, x ≤ n → x + k < right.width.toNat → R x = k := by
      intro x hx hxk
      by_contra hne
      obtain ⟨n1, n2, -⟩ := hR x hx
      have h3 := hd x y (R x) hxk hy n1.2.2.2 n1.2.2.1 hne
      have h4 := h2 _ (n2 k ⟨by show x < right.width.toNat; omega, hy, hk, hxk⟩)
      obtain ⟨p1, e1⟩ := hin.nodeQ car x y (R x)
      obtain ⟨p2, e2⟩ := hin.nodeQ car x y k
      rw [show ψ (sub _ _) = sub (ψ _) (ψ _) from car.sub _ _ p1 p2, ← e1, ← e2, hmap, fresh_nodeQ, fresh_nodeQ, h.same x y hxk hy] at h4
      rw [h.same x y hxk hy] at h3
      replace h4 := of_decide_eq_true h4
      change (c : ℚ) * (((left.at (x + k) y : ℕ) - (left.at (x + R x) y : ℕ) : ℚ) * ((left.at (x + k) y : ℕ) - (left.at (x + R x) y : ℕ))) -
        (c : ℚ) * (((left.at (x + k) y : ℕ) - (left.at (x + k) y : ℕ) : ℚ) * ((left.at (x + k) y : ℕ) - (left.at (x + k) y : ℕ))) ≤ max (c * a) s at h4
      rw [sub_self, mul_zero, mul_zero, sub_zero, ← sq] at h4
      exact absurd h3 (not_lt.2 h4)
    have outer : ∀ m, right.width.toNat - 1 - k + m ≤ n → k ≤ R (right.width.toNat - 1 - k + m) + m := by
      intro m hm
      induction m with
      | zero => exact (inner _ hm (by omega)).ge
      | succ m ih =>
        have h3 := ih (by omega)
        have h4 := ((hR _ hm).2.2 (by omega)).2.2.2.2 rfl
        rw [show right.width.toNat - 1 - k + (m + 1) - 1 = right.width.toNat - 1 - k + m by omega] at h4
        omega
    unfold staircase
    rcases Nat.lt_or_ge (n + k) right.width.toNat with hxk | hxk
    · rw [inner n le_rfl hxk]
      omega
    · have h3 := outer (n - (right.width.toNat - 1 - k)) (by omega)
      rw [show right.width.toNat - 1 - k + (n - (right.width.toNat - 1 - k)) = n by omega] at h3
      have h4 : n + R n < right.width.toNat := (hR n le_rfl).1.2.2.2
      omega

/-- The map of the shift is found by threads that work in turn. -/
theorem C124_found_map (car : Carrier ψ P i) (hQ : ∀ a b, P a → P b → Q (sub a b)) (hcut : Cut ψ Q) (hc : c ≤ 2 ^ i) (hs : s ≤ 2 ^ i)
    (hin : FromInput i (freshGraph left right levels (ofNat c : F) (ofNat s))) (hg : (freshGraph left right levels (ofNat c : F) (ofNat s)).Fresh)
    (hgq : (freshGraph left right levels (ofNat c : ℚ) (ofNat s)).Fresh) (hj : 0 < jobs) (hfit : right.height.toNat + jobs ≤ 18446744073709551616)
    (hk : k < levels.toNat) (hlw : levels.toNat ≤ right.width.toNat) (h : Shifted left right k a)
    (hd : Distinct left right levels.toNat k c (max (c * a) s)) :
    Ok (disparityMap (UInt64.ofNat jobs) (freshGraph left right levels (ofNat c : F) (ofNat s)))
      (MapOf (freshGraph left right levels (ofNat c : F) (ofNat s)) (staircase right.width.toNat k)) :=
  disparityMap_only hg hj hfit (shift_forced car hQ hcut hc hs hin hg hgq hj hfit hk hlw h hd)

end

section
variable {B : Nat} {world : World Double} {o : Options} {l r p : Text} {g : DisparityGraph Double} {left right : Image} {levels c s : UInt64} {k : ℕ} {a : ℚ}

/-- If threads that work in turn find a labeling of the graph, then the program with one thread writes it. -/
theorem World.writes_exact {L : ℕ → ℕ → ℕ} (hw : world.Reasonable 1) (hruns : world.Runs B 1) (hcpu : world.CpuOnly)
    (hl : o.leftImage = some l) (hr : o.rightImage = some r) (hp : o.outputImage = some p) (hnone : o.parallel = none) (hrange : world.InRange 53 o l r)
    (hg : readGraph world o l r = .ok g) (hleft : readImage world l = .ok left) (hright : readImage world r = .ok right)
    (hlevels : levelsOption left o.disparityLevels = .ok levels) (hc : weightNumber o.cleanness = .ok c) (hsm : weightNumber o.smoothness = .ok s)
    (hL : ∀ x y, x < right.width.toNat → y < right.height.toNat → L x y < levels.toNat ∧ x + L x y < right.width.toNat)
    (hfound : c.toNat ≤ 2 ^ 53 → s.toNat ≤ 2 ^ 53 → FromInput 53 (freshGraph left right levels (ofNat c.toNat : Format.binary64.Num) (ofNat s.toNat)) →
      (freshGraph left right levels (ofNat c.toNat : Format.binary64.Num) (ofNat s.toNat)).Fresh →
      (freshGraph left right levels (ofNat c.toNat : ℚ) (ofNat s.toNat)).Fresh → levels.toNat ≤ right.width.toNat →
      right.height.toNat + 1 ≤ 18446744073709551616 →
      Ok (disparityMap 1 (freshGraph left right levels (ofNat c.toNat : Format.binary64.Num) (ofNat s.toNat)))
        (MapOf (freshGraph left right levels (ofNat c.toNat : Format.binary64.Num) (ofNat s.toNat)) L)) :
    ∃ out im text, program world (.parsed o) = .ok out ∧ out.exit = 0 ∧ out.err = [] ∧ im.width = right.width ∧ im.height = right.height ∧
      im.maxValue = levels ∧ (∀ x y, x < right.width.toNat → y < right.height.toNat → im.at x y = L x y) ∧
      writePgm (some im) = .ok text ∧ out.written = if world.writable p then some (p, text) else none := by
  have car : Carrier toDouble (Ieee.Small 53) 53 := Ieee.carrier (.refl .binary64 (by decide))
  have hk53 : 53 ≤ Format.binary64.digits := by decide
  obtain ⟨world', h1, h2, h3⟩ := World.pullDevice car car (fun _ => rfl) hruns hcpu.devices
  have hw' : world'.Reasonable 1 := ⟨h1.memory ▸ hw.memory, hw.jobs_pos, hw.jobs_small, h1.room ▸ hw.room⟩
  have hread : ∀ t, readImage world' t = readImage world t := fun t => (readImage_transfer h1 t).symm
  have hrange' : world'.InRange 53 o l r := by
    intro left right levels c s
    rw [hread, hread]
    exact hrange left right levels c s
  have hsim := readGraph_transfer car h1 o l r hrange'
  rw [hg] at hsim
  cases hg' : readGraph world' o l r with
  | error e => rw [hg'] at hsim; exact hsim.elim
  | ok g' =>
  rw [hg'] at hsim
  obtain ⟨left', right', levels', c', s', q1, q2, q3, q4, q5, ha, hls, hrs, hsmall, rfl⟩ := readGraph_ok hw' hg'
  rw [hread, hleft] at q1
  rw [hread, hright] at q2
  cases q1
  cases q2
  rw [hlevels] at q3
  cases q3
  rw [weightOption_eq, hc] at q4
  rw [weightOption_eq, hsm] at q5
  cases q4
  cases q5
  obtain ⟨f1, f2, f3⟩ := fresh_limits hw' ha hls hrs hsmall
  obtain ⟨hc53, hs53, -⟩ := hrange left right levels c s hleft hright hlevels hc hsm
  have hturn : world'.solve.InTurn 1 := h2.elim Solver.Possible.inTurn fun h => h ▸ Solver.InTurn.seq 1
  have haq := accepted_map (Format.value_carrier hk53) hc53 hs53 ha
  have hmap := hfound hc53 hs53 hsim.1 f1 (freshGraph_fresh hls hrs haq (accepted_fits haq hls hsmall)) (ha.2.2.2.2.1 ▸ ha.2.2.2.1) f2
  obtain ⟨out, im, text, e1, e2, e3, e4, e5, e6⟩ := World.writes_in_turn hw' hturn hl hr hp hnone hg'
    (fun x y hx hy => ⟨hx, hy, (hL x y hx hy).1, (hL x y hx hy).2⟩) hmap
  refine ⟨out, im, text, ?_, e2, e3, e4.width, e4.height, e4.levels, e4.value, e5, ?_⟩
  · rw [program_transfer car h1 _ fun o' l' r' ho hl' hr' => by cases ho; rw [hl] at hl'; rw [hr] at hr'; cases hl'; cases hr'; exact hrange']
    exact e1
  · rw [e6, h1.writable]

/-- **C124**: one thread always finds the map of the shift. -/
theorem C124_program (hw : world.Reasonable 1) (hruns : world.Runs B 1) (hcpu : world.CpuOnly)
    (hl : o.leftImage = some l) (hr : o.rightImage = some r) (hp : o.outputImage = some p) (hnone : o.parallel = none) (hrange : world.InRange 53 o l r)
    (hg : readGraph world o l r = .ok g) (hleft : readImage world l = .ok left) (hright : readImage world r = .ok right)
    (hlevels : levelsOption left o.disparityLevels = .ok levels) (hc : weightNumber o.cleanness = .ok c) (hsm : weightNumber o.smoothness = .ok s)
    (hk : k < levels.toNat) (h : Shifted left right k a) (hd : Distinct left right levels.toNat k c.toNat (max (c.toNat * a) s.toNat)) :
    ∃ out im text, program world (.parsed o) = .ok out ∧ out.exit = 0 ∧ out.err = [] ∧ im.width = right.width ∧ im.height = right.height ∧
      im.maxValue = levels ∧ (∀ x y, x < right.width.toNat → y < right.height.toNat → im.at x y = staircase right.width.toNat k x y) ∧
      writePgm (some im) = .ok text ∧ out.written = if world.writable p then some (p, text) else none := by
  refine World.writes_exact hw hruns hcpu hl hr hp hnone hrange hg hleft hright hlevels hc hsm (fun x y hx hy => (staircase_labels hk).node x y hx hy) ?_
  intro a1 a2 a3 a4 a5 a6 a7
  exact C124_found_map (Format.value_carrier (by decide)) (Format.difference_of (by decide)) (Format.cut_value (by decide)) a1 a2 a3 a4 a5 Nat.one_pos a7 hk a6 h hd

end

/-! ## Non-vacuity -/

/-- Images of four columns shifted by two, except that one pixel is known up to `5`. -/
theorem four_shifted : Shifted ⟨4, 1, 99, #[0, 20, 40, 60]⟩ ⟨4, 1, 99, #[40, 60, 55, 60]⟩ 2 25 ∧
    Distinct ⟨4, 1, 99, #[0, 20, 40, 60]⟩ ⟨4, 1, 99, #[40, 60, 55, 60]⟩ 3 2 1 (max ((1 : ℕ) * 25) (1 : ℕ)) := by
  have hl : ∀ x : Fin 4, (Image.mk 4 1 99 #[0, 20, 40, 60]).at x 0 = 20 * x := by decide +kernel
  have hr : (Image.mk 4 1 99 #[40, 60, 55, 60]).at 0 0 = 40 ∧ (Image.mk 4 1 99 #[40, 60, 55, 60]).at 1 0 = 60 ∧
    (Image.mk 4 1 99 #[40, 60, 55, 60]).at 2 0 = 55 ∧ (Image.mk 4 1 99 #[40, 60, 55, 60]).at 3 0 = 60 := by decide +kernel
  obtain ⟨r0, r1, r2, r3⟩ := hr
  have hl' : ∀ x, x < 4 → (Image.mk 4 1 99 #[0, 20, 40, 60]).at x 0 = 20 * x := fun x hx => hl ⟨x, hx⟩
  refine ⟨⟨by norm_num, fun x y hx hy => ?_, fun x y hx hx' hy => ?_⟩, fun x y d hx hy hd hd' hne => ?_⟩
  · obtain rfl : y = 0 := Nat.lt_one_iff.1 hy
    change x + 2 < 4 at hx
    rw [hl' _ hx]
    obtain rfl | rfl : x = 0 ∨ x = 1 := by omega
    · exact r0
    · exact r1
  · obtain rfl : y = 0 := Nat.lt_one_iff.1 hy
    change 4 ≤ x + 2 at hx
    change x < 4 at hx'
    show (((Image.mk 4 1 99 #[40, 60, 55, 60]).at x 0 : ℚ) - (Image.mk 4 1 99 #[0, 20, 40, 60]).at 3 0) ^ 2 ≤ 25
    rw [hl' 3 (by decide)]
    obtain rfl | rfl : x = 2 ∨ x = 3 := by omega
    · rw [r2]
      norm_num
    · rw [r3]
      norm_num
  · obtain rfl : y = 0 := Nat.lt_one_iff.1 hy
    change x + 2 < 4 at hx
    change x + d < 4 at hd
    rw [hl' _ hd, show max (((1 : ℕ) : ℚ) * 25) (1 : ℕ) = 25 by norm_num]
    obtain rfl | rfl : x = 0 ∨ x = 1 := by omega
    · rw [r0]
      obtain rfl | rfl : d = 0 ∨ d = 1 := by omega
      all_goals norm_num
    · rw [r1]
      obtain rfl | rfl : d = 0 ∨ d = 1 := by omega
      all_goals norm_num

/-- The map is that of the shift. -/
example : program (imagesWorld "P2 4 1 99 0 20 40 60" "P2 4 1 99 40 60 55 60" (fun _ => solveCsp 1) none) (.parsed (imagesOptions "3" "1" "1" none)) =
      .ok { exit := 0, written := some (bytes "o", bytes "P2\n4 1\n3\n2 2 1 0\n") } ∧
    (List.range 4).map (fun x => staircase 4 2 x 0) = [2, 2, 1, 0] := by
  refine ⟨by decide +kernel, by decide +kernel⟩

/-- The last columns matter: the same images, except for one pixel that is far from the last one of the row, have another map also where they are shifted. -/
example : program (imagesWorld "P2 4 1 99 0 20 40 60" "P2 4 1 99 40 60 20 60" (fun _ => solveCsp 1) none) (.parsed (imagesOptions "3" "1" "1" none)) =
    .ok { exit := 0, written := some (bytes "o", bytes "P2\n4 1\n3\n2 1 0 0\n") } := by decide +kernel

end SP
