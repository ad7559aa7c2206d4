import Verif.Props.Rows
import Verif.Props.CudaKernel
import Verif.Props.Perfect
/-!
# C117, C118: more levels than needed, and images without smoothness

One may expect that a number of disparity levels larger than needed changes nothing: if no disparity of the map found with more levels is
too large for fewer levels, then the map found with fewer levels is the same. It is false: the threshold is relative to the best node of each
pixel, and the best one may be a node that is used by neither map.

If smoothness is zero, then rows influence each other only by the threshold. So if rows of both images are rearranged (exchanged, repeated),
then so are rows of the map.
-/
namespace SP
open FloatOps ConstraintGraph Gpu
set_option maxRecDepth 1000000

/-! ## More levels -/

section
variable {F : Type} [FloatOps F]

/-- The graph `g'` differs from `g` by additional levels. -/
structure MoreLevels (g g' : DisparityGraph F) : Prop where
  width : g'.right.width = g.right.width
  height : g'.right.height = g.right.height
  levels : g.levels ≤ g'.levels
  positive : 0 < g.levels
  node : ∀ x y d, g'.nodeQ x y d = g.nodeQ x y d
  edge : ∀ x y k d d', g'.edgeQ x y k d d' = g.edgeQ x y k d d'
  even : ∀ x y k d d', le (g.edgeQ x y k 0 0) (g.edgeQ x y k d d') = true

/-- The best node of each pixel is among those of `g`. -/
def MoreLevels.Enough (g g' : DisparityGraph F) : Prop :=
  ∀ x y d, g'.IsNode x y d → ∃ e, g.IsNode x y e ∧ le (g.nodeQ x y e) (g.nodeQ x y d) = true

variable {g g' : DisparityGraph F}

theorem MoreLevels.isNode (h : MoreLevels g g') (x y d : ℕ) : g.IsNode x y d ↔ g'.IsNode x y d ∧ d < g.levels := by
  have := h.levels
  simp only [DisparityGraph.IsNode, DisparityGraph.w, DisparityGraph.h, h.width, h.height] at *
  omega

theorem MoreLevels.hasNb (h : MoreLevels g g') (x y k : ℕ) : HasNb g'.w g'.h x y k ↔ HasNb g.w g.h x y k := by
  simp only [DisparityGraph.w, DisparityGraph.h, h.width, h.height]

theorem MoreLevels.isEdge (h : MoreLevels g g') (x y k d d' : ℕ) : g.IsEdge x y k d d' ↔ g'.IsEdge x y k d d' ∧ d < g.levels ∧ d' < g.levels := by
  simp only [DisparityGraph.IsEdge, h.isNode, h.hasNb]
  tauto

theorem MoreLevels.w_eq (h : MoreLevels g g') : g'.w = g.w := by
  simp only [DisparityGraph.w, h.width]

theorem MoreLevels.h_eq (h : MoreLevels g g') : g'.h = g.h := by
  simp only [DisparityGraph.h, h.height]

/-- Labelings with small disparities stay feasible with fewer levels. -/
theorem MoreLevels.down (h : MoreLevels g g') {t : F} {L : ℕ → ℕ → ℕ} (hL : g'.FeasibleAt t L)
    (hsmall : ∀ x y, x < g.w → y < g.h → L x y < g.levels) : g.FeasibleAt t L := by
  intro x y hx hy
  obtain ⟨h1, h2, h3⟩ := hL x y (h.w_eq ▸ hx) (h.h_eq ▸ hy)
  refine ⟨(h.isNode _ _ _).2 ⟨h1, hsmall x y hx hy⟩, fun d hd => ?_, fun k hk => ?_⟩
  · have := h2 d ((h.isNode _ _ _).1 hd).1
    rwa [h.node, h.node] at this
  · obtain ⟨h4, h5⟩ := h3 k ((h.hasNb _ _ _).2 hk)
    refine ⟨(h.isEdge _ _ _ _ _).2 ⟨h4, hsmall x y hx hy, hsmall _ _ hk.nbx_lt hk.nby_lt⟩, fun d d' hd => ?_⟩
    have := h5 d d' ((h.isEdge _ _ _ _ _).1 hd).1
    rwa [h.edge, h.edge] at this

/-- Labelings stay feasible with more levels, if the best node of each pixel is the same. -/
theorem MoreLevels.up [LawfulFloat F] (h : MoreLevels g g') (he : MoreLevels.Enough g g') {t : F} {L : ℕ → ℕ → ℕ} (hL : g.FeasibleAt t L) :
    g'.FeasibleAt t L := by
  intro x y hx hy
  rw [h.w_eq] at hx
  rw [h.h_eq] at hy
  obtain ⟨h1, h2, h3⟩ := hL x y hx hy
  refine ⟨((h.isNode _ _ _).1 h1).1, fun d hd => ?_, fun k hk => ?_⟩
  · obtain ⟨e, he, hle⟩ := he x y d hd
    rw [h.node, h.node]
    exact LawfulFloat.le_trans _ _ _ (LawfulFloat.sub_anti _ _ _ hle) (h2 e he)
  · have hk := (h.hasNb _ _ _).1 hk
    obtain ⟨h4, h5⟩ := h3 k hk
    refine ⟨((h.isEdge _ _ _ _ _).1 h4).1, fun d d' _ => ?_⟩
    rw [h.edge, h.edge]
    refine LawfulFloat.le_trans _ _ _ (LawfulFloat.sub_anti _ _ _ (h.even x y k d d')) (h5 0 0 ?_)
    exact ⟨hk, ⟨hk.1, hk.2.1, h.positive, hk.1⟩, ⟨hk.nbx_lt, hk.nby_lt, h.positive, hk.nbx_lt⟩, by unfold OrderOK; omega⟩

/-- If the map with more levels has disparities for which fewer levels are enough, then the least threshold with fewer levels is not greater;
if, besides, the best node of each pixel is among those of fewer levels, then the map with fewer levels is the same. -/
theorem C117_best_map_partial [LawfulFloat F] (h : MoreLevels g g') {t t' : F} {im im' : Image} (hb : BestMap g t im) (hb' : BestMap g' t' im')
    (hsmall : ∀ x y, x < g.w → y < g.h → im'.at x y < g.levels) :
    le t t' = true ∧ (MoreLevels.Enough g g' → t = t' ∧ ∀ x y, x < g.w → y < g.h → im.at x y = im'.at x y) := by
  have hle : le t t' = true := hb.least _ _ (h.down hb'.best.1 hsmall)
  refine ⟨hle, fun he => ?_⟩
  obtain rfl : t = t' := LawfulFloat.le_antisymm _ _ hle (hb'.least _ _ (h.up he hb.best.1))
  refine ⟨rfl, LexBest.unique hb.best ⟨h.down hb'.best.1 hsmall, fun L hL x y hx hy hbefore => ?_⟩⟩
  have := hb'.best.2 L (h.up he hL) x y (h.w_eq ▸ hx) (h.h_eq ▸ hy) fun x' y' hx' hy' => hbefore x' y' (h.w_eq ▸ hx') (h.h_eq ▸ hy')
  rwa [h.node, h.node] at this

theorem smoothness_nonneg [LawfulFloat F] {left right : Image} {levels : UInt64} {c s : F} (hin : AcceptedInput left right levels c s) :
    le (zero : F) s = true := by
  have := hin.2.2.2.2.2.2.2.2.1
  rcases LawfulFloat.le_total (zero : F) s with h | h
  · exact h
  · by_contra hn
    rw [Bool.not_eq_true, ← LawfulFloat.lt_iff, this] at hn
    cases hn

/-- Graphs of images. -/
theorem moreLevels [LawfulFloat F] {left right : Image} {levels levels' : UInt64} {c s : F} (hle : levels.toNat ≤ levels'.toNat)
    (hin : AcceptedInput left right levels c s) : MoreLevels (freshGraph left right levels c s) (freshGraph left right levels' c s) := by
  have hs := smoothness_nonneg hin
  refine ⟨rfl, rfl, hle, Nat.lt_trans Nat.zero_lt_one hin.2.2.1, fun x y d => ?_, fun x y k d d' => ?_, fun x y k d d' => ?_⟩
  · rw [fresh_nodeQ, fresh_nodeQ]
  · rw [fresh_edgeQ, fresh_edgeQ]
  · rw [fresh_edgeQ, fresh_edgeQ, LawfulFloat.sub_self]
    refine LawfulFloat.mul_mono _ _ _ hs ?_
    have : sqr (zero : F) = zero := LawfulFloat.mul_zero _
    rw [this]
    exact LawfulFloat.sqr_nonneg _

end

/-- Each pixel of the right image has the most similar pixel of the left image (of those allowed by `levels'`) among those allowed by `levels`. -/
def SimilarWithin (left right : Image) (levels levels' : UInt64) : Prop :=
  ∀ x y d', x < right.width.toNat → y < right.height.toNat → d' < levels'.toNat → x + d' < right.width.toNat →
    ∃ d, d < levels.toNat ∧ x + d < right.width.toNat ∧
      ((right.at x y : ℤ) - left.at (x + d) y).natAbs ≤ ((right.at x y : ℤ) - left.at (x + d') y).natAbs

/-- Penalties do not decrease if differences of intensities increase. -/
def PenaltiesGrow (H : Type) [FloatOps H] : Prop :=
  ∀ c u v v' : ℕ, u ≤ 2 ^ 16 → v ≤ 2 ^ 16 → v' ≤ 2 ^ 16 → ((u : ℤ) - v).natAbs ≤ ((u : ℤ) - v').natAbs →
    le (mul (ofNat c) (sqr (sub (ofNat u) (ofNat v))) : H) (mul (ofNat c) (sqr (sub (ofNat u) (ofNat v')))) = true

theorem penaltiesGrow_num {fmt : Format} (hd : 24 ≤ fmt.digits) : PenaltiesGrow fmt.Num := fun _ _ _ _ hu hv hv' h => Format.penalty_le hd hu hv hv' h

theorem penaltiesGrow_rat : PenaltiesGrow ℚ := by
  intro c u v v' _ _ _ h
  refine decide_eq_true (mul_le_mul_of_nonneg_left ?_ (Nat.cast_nonneg c))
  show ((u : ℚ) - v) * (u - v) ≤ (u - v') * (u - v')
  have := Nat.mul_self_le_mul_self h
  have e : ∀ v : ℕ, ((u : ℚ) - v) * (u - v) = ((((u : ℤ) - v) * ((u : ℤ) - v) : ℤ) : ℚ) := fun v => by push_cast; rfl
  rw [e, e, ← Int.natAbs_mul_self' ((u : ℤ) - v), ← Int.natAbs_mul_self' ((u : ℤ) - v')]
  exact_mod_cast this

theorem SimilarWithin.enough {H : Type} [FloatOps H] [LawfulFloat H] (hd : PenaltiesGrow H) {left right : Image} {levels levels' : UInt64} {c s : ℕ}
    (hl : ∀ x y, left.at x y ≤ 2 ^ 16) (hr : ∀ x y, right.at x y ≤ 2 ^ 16) (h : SimilarWithin left right levels levels') :
    MoreLevels.Enough (freshGraph left right levels (ofNat c : H) (ofNat s)) (freshGraph left right levels' (ofNat c) (ofNat s)) := by
  rintro x y d ⟨h1, h2, h3, h4⟩
  obtain ⟨e, e1, e2, e3⟩ := h x y d h1 h2 h3 h4
  refine ⟨e, ⟨h1, h2, e1, e2⟩, ?_⟩
  rw [fresh_nodeQ, fresh_nodeQ]
  exact hd _ _ _ _ (hr _ _) (hl _ _) (hl _ _) e3

theorem readImage_at_le {F : Type} [FloatOps F] {world : World F} {path : Text} {im : Image} (h : readImage world path = .ok im) (hm : im.Meaningful) (x y : ℕ) :
    im.at x y ≤ 2 ^ 16 := by
  obtain ⟨text, -, ⟨a, b, c, ds, -, -, -, -, hmax, -⟩, -⟩ := readImage_ok h
  exact (hm.at_le x y).trans (UInt64.le_iff_toNat_le.1 hmax)

/-- Options and images of two executions: the second one has more levels, everything else is the same. -/
def World.WithMoreLevels {F F' : Type} [FloatOps F] [FloatOps F'] (world : World F) (world1 : World F') (o o1 : Options) (left right : Image)
    (levels levels1 : UInt64) : Prop :=
  ∃ (l r l1 r1 : Text) (c s : UInt64),
    o.leftImage = some l ∧ o.rightImage = some r ∧ o1.leftImage = some l1 ∧ o1.rightImage = some r1 ∧
    readImage world l = .ok left ∧ readImage world r = .ok right ∧ readImage world1 l1 = .ok left ∧ readImage world1 r1 = .ok right ∧
    levelsOption left o.disparityLevels = .ok levels ∧ levelsOption left o1.disparityLevels = .ok levels1 ∧ levels.toNat ≤ levels1.toNat ∧
    weightNumber o.cleanness = .ok c ∧ weightNumber o.smoothness = .ok s ∧ weightNumber o1.cleanness = .ok c ∧ weightNumber o1.smoothness = .ok s

/-- The texts are those of two maps of the same size. If the second one has no disparities for which `levels` are too few, then disparities are
the same. -/
def SameIfSmall (levels : UInt64) (text text1 : Text) : Prop :=
  ∃ im im1 : Image, writePgm (some im) = .ok text ∧ writePgm (some im1) = .ok text1 ∧ im.width = im1.width ∧ im.height = im1.height ∧
    ((∀ x y, x < im.width.toNat → y < im.height.toNat → im1.at x y < levels.toNat) →
      ∀ x y, x < im.width.toNat → y < im.height.toNat → im.at x y = im1.at x y)

theorem World.Result.moreLevels {F F' H : Type} [FloatOps F] [FloatOps F'] [FloatOps H] [LawfulFloat H] (hd : PenaltiesGrow H) {world : World F} {world1 : World F'}
    {o o1 : Options} {left right : Image} {levels levels1 : UInt64} {out out1 : Outcome} {path text path1 text1 : Text}
    (hr : world.WithMoreLevels world1 o o1 left right levels levels1) (hsim : SimilarWithin left right levels levels1)
    (h : world.Result H (.parsed o) out path text) (h1 : world1.Result H (.parsed o1) out1 path1 text1) : SameIfSmall levels text text1 := by
  obtain ⟨l, r, l', r', c, s, a1, a2, a3, a4, a5, a6, a7, a8, a9, a10, hle, a11, a12, a13, a14⟩ := hr
  obtain ⟨-, -, _, _, _, _, _, _, _, _, im, e, -, b1, b2, b3, b4, b5, b6, b7, b8, b9, -, -, -, t, b10⟩ := h
  obtain ⟨-, -, _, _, _, _, _, _, _, _, im', e', -, d1, d2, d3, d4, d5, d6, d7, d8, d9, -, -, -, t', d10⟩ := h1
  cases e; cases e'
  cases a1.symm.trans b1; cases a2.symm.trans b2; cases a3.symm.trans d1; cases a4.symm.trans d2
  cases a5.symm.trans b3; cases a6.symm.trans b4; cases a7.symm.trans d3; cases a8.symm.trans d4
  cases a9.symm.trans b5; cases a10.symm.trans d5
  cases a11.symm.trans b6; cases a12.symm.trans b7; cases a13.symm.trans d6; cases a14.symm.trans d7
  refine ⟨im, im', b9, d9, b10.width.trans d10.width.symm, b10.height.trans d10.height.symm, fun hs => ?_⟩
  rw [b10.width, b10.height] at hs ⊢
  exact ((C117_best_map_partial (SP.moreLevels hle b8) b10 d10 hs).2 (hsim.enough hd (readImage_at_le b3 b8.1) (readImage_at_le b4 b8.2.1))).2

section
variable {B B' : Nat} {jobs jobs' : UInt64} {world world' : World Double}

/-- **C117**, what holds. Full statement: if the map written with more levels has no disparities for which fewer levels are too few, then the map
written with fewer levels has the same disparities. It is false (`C117_more_levels_refuted`). What holds, whatever the weights, threads and
schedules: it is so if each pixel of the right image has the most similar pixel of the left image (of those allowed by more levels) among those
allowed by fewer levels. -/
theorem C117_more_levels_partial (hw : world.Reasonable jobs) (hw' : world'.Reasonable jobs') (hruns : world.Runs B jobs)
    (hruns' : world'.Runs B' jobs') (hcpu : world.CpuOnly) (hcpu' : world'.CpuOnly) {o o' : Options} {left right : Image} {levels levels' : UInt64}
    (hr : world.WithMoreLevels world' o o' left right levels levels') (hsim : SimilarWithin left right levels levels')
    (out out' : Outcome) (h : program world (.parsed o) = .ok out) (h' : program world' (.parsed o') = .ok out') (path text path' text' : Text)
    (hwr : out.written = some (path, text)) (hwr' : out'.written = some (path', text')) : SameIfSmall levels text text' :=
  World.Result.moreLevels (penaltiesGrow_num (by decide)) hr hsim (World.result_num hw hruns hcpu h hwr) (World.result_num hw' hruns' hcpu' h' hwr')

/-- The same with devices that compute with `float`, if weights multiplied by squares of differences of intensities or levels are at most
`2^24`. -/
theorem C117_more_levels_device_partial {allowed allowed' : (Nat → Nat) → Prop} (hw : world.Reasonable jobs) (hw' : world'.Reasonable jobs')
    (hruns : world.Runs B jobs) (hruns' : world'.Runs B' jobs') (hdev : world.Devices (Ieee.convert : Double → Single) allowed)
    (hdev' : world'.Devices (Ieee.convert : Double → Single) allowed') {o o' : Options} {left right : Image} {levels levels' : UInt64}
    (hin : ∀ l r, o.leftImage = some l → o.rightImage = some r → world.InRange 24 o l r)
    (hin' : ∀ l r, o'.leftImage = some l → o'.rightImage = some r → world'.InRange 24 o' l r)
    (hr : world.WithMoreLevels world' o o' left right levels levels') (hsim : SimilarWithin left right levels levels')
    (out out' : Outcome) (h : program world (.parsed o) = .ok out) (h' : program world' (.parsed o') = .ok out') (path text path' text' : Text)
    (hwr : out.written = some (path, text)) (hwr' : out'.written = some (path', text')) : SameIfSmall levels text text' :=
  World.Result.moreLevels penaltiesGrow_rat hr hsim
    (C93_float_device_partial hw hruns hdev _ (by rintro _ l r ⟨⟩ h1 h2; exact hin l r h1 h2) out h path text hwr)
    (C93_float_device_partial hw' hruns' hdev' _ (by rintro _ l r ⟨⟩ h1 h2; exact hin' l r h1 h2) out' h' path' text' hwr')

end

/-- **C117** is false: for images `4 2 6 7` and `7 0 7 2` the map with three levels is `0 0 1 0`, that with two levels consists of zeros. -/
theorem C117_more_levels_refuted : ∃ (world : World Double) (o o' : Options) (left right : Image) (out out' : Outcome), world.Reasonable 1 ∧
    world.Runs 64 1 ∧ world.CpuOnly ∧ world.WithMoreLevels world o o' left right 2 3 ∧
    program world (.parsed o) = .ok out ∧ program world (.parsed o') = .ok out' ∧
    out.written = some (bytes "o", bytes "P2\n4 1\n2\n0 0 0 0\n") ∧ out'.written = some (bytes "o", bytes "P2\n4 1\n3\n0 0 1 0\n") :=
  ⟨imagesWorld "P2 4 1 9 4 2 6 7" "P2 4 1 9 7 0 7 2" (fun _ => solveCsp 1) none, imagesOptions "2" "1" "2" none, imagesOptions "3" "1" "2" none,
    ⟨4, 1, 9, #[4, 2, 6, 7]⟩, ⟨4, 1, 9, #[7, 0, 7, 2]⟩, { exit := 0, written := some (bytes "o", bytes "P2\n4 1\n2\n0 0 0 0\n") },
    { exit := 0, written := some (bytes "o", bytes "P2\n4 1\n3\n0 0 1 0\n") }, imagesWorld_reasonable _ _ _ _ (.inl rfl), .inr rfl, ⟨rfl, rfl⟩,
    ⟨bytes "l", bytes "r", bytes "l", bytes "r", 1, 2, rfl, rfl, rfl, rfl, by decide +kernel, by decide +kernel, by decide +kernel, by decide +kernel,
      by decide +kernel, by decide +kernel, by decide, by decide +kernel, by decide +kernel, by decide +kernel, by decide +kernel⟩,
    by decide +kernel, by decide +kernel, rfl, rfl⟩

/-- Non-vacuity of the partial theorem: images for which a third level changes nothing, and the map is not of zeros. -/
example : SimilarWithin ⟨3, 1, 9, #[1, 2, 9]⟩ ⟨3, 1, 9, #[2, 8, 8]⟩ 2 3 ∧
    program (imagesWorld "P2 3 1 9 1 2 9" "P2 3 1 9 2 8 8" (fun _ => solveCsp 1) none) (.parsed (imagesOptions "2" "1" "1" none)) =
      .ok { exit := 0, written := some (bytes "o", bytes "P2\n3 1\n2\n1 1 0\n") } ∧
    program (imagesWorld "P2 3 1 9 1 2 9" "P2 3 1 9 2 8 8" (fun _ => solveCsp 1) none) (.parsed (imagesOptions "3" "1" "1" none)) =
      .ok { exit := 0, written := some (bytes "o", bytes "P2\n3 1\n3\n1 1 0\n") } := by
  refine ⟨fun x y d' hx hy hd hxd => ?_, by decide +kernel, by decide +kernel⟩
  obtain rfl : y = 0 := Nat.lt_one_iff.1 hy
  have h : ∀ x d' : Fin 3, (x : ℕ) + d' < 3 → ∃ d : Fin 2, (x : ℕ) + d < 3 ∧
      (((Image.mk 3 1 9 #[2, 8, 8]).at x 0 : ℤ) - (Image.mk 3 1 9 #[1, 2, 9]).at (x + d : ℕ) 0).natAbs ≤
        (((Image.mk 3 1 9 #[2, 8, 8]).at x 0 : ℤ) - (Image.mk 3 1 9 #[1, 2, 9]).at (x + d' : ℕ) 0).natAbs := by decide +kernel
  obtain ⟨d, h1, h2⟩ := h ⟨x, hx⟩ ⟨d', hd⟩ hxd
  exact ⟨d, d.2, h1, h2⟩

/-! ## No smoothness -/

section
variable {F : Type} [FloatOps F]

/-- Edges do not matter. -/
def DisparityGraph.Flat (g : DisparityGraph F) : Prop := ∀ x y k d d', g.edgeQ x y k d d' = zero

/-- `R` may be the row `y` of a labeling. -/
def DisparityGraph.RowAt (g : DisparityGraph F) (t : F) (y : ℕ) (R : ℕ → ℕ) : Prop :=
  ∀ x, x < g.w → g.IsNode x y (R x) ∧ (∀ d, g.IsNode x y d → le (sub (g.nodeQ x y (R x)) (g.nodeQ x y d)) t = true) ∧
    ∀ k, k < 2 → HasNb g.w g.h x y k → OrderOK k (R x) (R (nbx x k))

variable {g g' : DisparityGraph F}

/-- If edges do not matter, then rows of feasible labelings are any feasible rows. -/
theorem DisparityGraph.Flat.feasible [LawfulFloat F] (h : g.Flat) {t : F} {L : ℕ → ℕ → ℕ} :
    g.FeasibleAt t L ↔ ∀ y, y < g.h → g.RowAt t y fun x => L x y := by
  constructor
  · intro hL y hy x hx
    obtain ⟨h1, h2, h3⟩ := hL x y hx hy
    refine ⟨h1, h2, fun k hk2 hk => ?_⟩
    have := (h3 k hk).1.2.2.2
    rwa [nby_row hk2] at this
  · intro hL x y hx hy
    obtain ⟨h1, h2, h3⟩ := hL y hy x hx
    refine ⟨h1, h2, fun k hk => ⟨⟨hk, h1, (hL _ hk.nby_lt _ hk.nbx_lt).1, ?_⟩, fun d d' _ => ?_⟩⟩
    · rcases Nat.lt_or_ge k 2 with hk2 | hk2
      · have := h3 k hk2 hk
        rwa [nby_row hk2]
      · unfold OrderOK
        omega
    · rw [h, h]
      have := h2 _ h1
      rwa [LawfulFloat.sub_self] at this ⊢

/-- Rows of the graph `g'` are those of `g` in another order, possibly several times: the row `y` of `g'` is the row `σ y` of `g`. -/
structure Rearranged (σ : ℕ → ℕ) (g g' : DisparityGraph F) : Prop where
  width : g'.right.width = g.right.width
  levels : g'.disparityLevels = g.disparityLevels
  into : ∀ y, y < g'.h → σ y < g.h
  onto : ∀ y, y < g.h → ∃ y', y' < g'.h ∧ σ y' = y
  node : ∀ x y d, g'.IsNode x y d → g'.nodeQ x y d = g.nodeQ x (σ y) d

variable {σ : ℕ → ℕ}

theorem Rearranged.isNode (h : Rearranged σ g g') {y : ℕ} (hy : y < g'.h) (x d : ℕ) : g'.IsNode x y d ↔ g.IsNode x (σ y) d := by
  have h1 : g'.w = g.w := by simp only [DisparityGraph.w, h.width]
  have h2 : g'.levels = g.levels := by simp only [DisparityGraph.levels, h.levels]
  simp only [DisparityGraph.IsNode, h1, h2, hy, h.into y hy]

theorem Rearranged.rowAt (h : Rearranged σ g g') {t : F} {y : ℕ} (hy : y < g'.h) {R : ℕ → ℕ} : g'.RowAt t y R ↔ g.RowAt t (σ y) R := by
  have hw : g'.w = g.w := by simp only [DisparityGraph.w, h.width]
  have hnb : ∀ x k, k < 2 → (HasNb g'.w g'.h x y k ↔ HasNb g.w g.h x (σ y) k) := by
    intro x k hk
    have := h.into y hy
    simp only [HasNb, hw]
    omega
  unfold DisparityGraph.RowAt
  rw [hw]
  refine forall₂_congr fun x hx => ?_
  rw [h.isNode hy]
  refine and_congr_right fun h1 => and_congr (forall_congr' fun d => ?_) (forall₂_congr fun k hk => ?_)
  · rw [h.isNode hy]
    refine forall_congr' fun hd => ?_
    rw [h.node _ _ _ ((h.isNode hy _ _).2 h1), h.node _ _ _ ((h.isNode hy _ _).2 hd)]
  · have := hnb x k hk
    rw [hw] at this
    rw [this]

/-- If edges do not matter, then rows of the map are rearranged as rows of the graph. -/
theorem C118_best_map [LawfulFloat F] (h : Rearranged σ g g') (hg : g.Flat) (hg' : g'.Flat) {t t' : F} {im im' : Image} (hb : BestMap g t im)
    (hb' : BestMap g' t' im') : t = t' ∧ ∀ x y, x < g'.w → y < g'.h → im'.at x y = im.at x (σ y) := by
  have hw : g'.w = g.w := by simp only [DisparityGraph.w, h.width]
  have f := hg.feasible.1 hb.best.1
  have f' := hg'.feasible.1 hb'.best.1
  have e : t = t' := by
    refine LawfulFloat.le_antisymm _ _ ?_ ?_
    · choose! ρ hρ using h.onto
      refine hb.least t' (fun x y => im'.at x (ρ y)) (hg.feasible.2 fun y hy => ?_)
      have := (h.rowAt (hρ y hy).1).1 (f' (ρ y) (hρ y hy).1)
      rwa [(hρ y hy).2] at this
    · exact hb'.least t (fun x y => im.at x (σ y)) (hg'.feasible.2 fun y hy => (h.rowAt hy).2 (f (σ y) (h.into y hy)))
  subst e
  refine ⟨rfl, fun x => ?_⟩
  induction x using Nat.strongRecOn with
  | _ x ih =>
    intro y hx hy
    have hσ := h.into y hy
    -- the row of one map in the other one
    have m' : g'.FeasibleAt t fun x' y' => if y' = y then im.at x' (σ y) else im'.at x' y' := hg'.feasible.2 fun y' hy' => by
      by_cases hyy : y' = y
      · subst hyy
        simp only [if_true]
        exact (h.rowAt hy').2 (f _ hσ)
      · simp only [if_neg hyy]
        exact f' y' hy'
    have m : g.FeasibleAt t fun x' y' => if y' = σ y then im'.at x' y else im.at x' y' := hg.feasible.2 fun y' hy' => by
      by_cases hyy : y' = σ y
      · subst hyy
        simp only [if_true]
        exact (h.rowAt hy).1 (f' _ hy)
      · simp only [if_neg hyy]
        exact f y' hy'
    obtain ⟨a1, a2⟩ := hb'.best.2 _ m' x y hx hy fun x' y' hx' hy' hlt => by
      by_cases hyy : y' = y
      · subst hyy
        simp only [if_true]
        exact (ih x' (by omega) y' hx' hy').symm
      · simp only [if_neg hyy]
    obtain ⟨b1, b2⟩ := hb.best.2 _ m x (σ y) (hw ▸ hx) hσ fun x' y' hx' hy' hlt => by
      by_cases hyy : y' = σ y
      · subst hyy
        simp only [if_true]
        exact ih x' (by omega) y (hw ▸ hx') hy
      · simp only [if_neg hyy]
    simp only [if_true] at a1 a2 b1 b2
    have n1 := (f' y hy x hx).1
    have n2 := (m' x y hx hy).1
    simp only [if_true] at n2
    rw [h.node _ _ _ n1, h.node _ _ _ n2] at a1 a2
    rcases Nat.lt_trichotomy (im'.at x y) (im.at x (σ y)) with hlt | heq | hlt
    · have := b2 hlt
      rw [LawfulFloat.lt_iff, a1] at this
      cases this
    · exact heq
    · have := a2 hlt
      rw [LawfulFloat.lt_iff, b1] at this
      cases this

end

/-- Rows of the image `im'` are those of `im` in another order, possibly several times. -/
structure Image.Rearranged (σ : ℕ → ℕ) (im im' : Image) : Prop where
  width : im'.width = im.width
  into : ∀ y, y < im'.height.toNat → σ y < im.height.toNat
  onto : ∀ y, y < im.height.toNat → ∃ y', y' < im'.height.toNat ∧ σ y' = y
  row : ∀ x y, x < im'.width.toNat → y < im'.height.toNat → im'.at x y = im.at x (σ y)

theorem flatGraph {H : Type} [FloatOps H] [LawfulFloat H] (hz : ∀ a : H, mul (ofNat 0) a = zero) {left right : Image} {levels : UInt64} {c : H} :
    (freshGraph left right levels c (ofNat 0)).Flat := by
  intro x y k d d'
  rw [fresh_edgeQ]
  exact hz _

theorem rearrangedGraph {F : Type} [FloatOps F] [LawfulFloat F] {σ : ℕ → ℕ} {left right left' right' : Image} {levels : UInt64} {c s : F}
    (hl : left.Rearranged σ left') (hr : right.Rearranged σ right') (hin : AcceptedInput left' right' levels c s) :
    Rearranged σ (freshGraph left right levels c s) (freshGraph left' right' levels c s) := by
  have hw : left'.width = right'.width := hin.2.2.2.2.1
  have hh : left'.height = right'.height := hin.2.2.2.2.2.1
  refine ⟨hr.width, rfl, hr.into, hr.onto, fun x y d hd => ?_⟩
  obtain ⟨h1, h2, -, h4⟩ := hd
  rw [fresh_nodeQ, fresh_nodeQ, hr.row x y h1 h2, hl.row (x + d) y (hw ▸ h4) (hh ▸ h2)]

/-- Options and images of two executions: smoothness is zero, rows of images of the second one are rearranged, everything else is the same. -/
def World.RearrangesRows {F F' : Type} [FloatOps F] [FloatOps F'] (σ : ℕ → ℕ) (world : World F) (world1 : World F') (o o1 : Options) : Prop :=
  ∃ (l r l1 r1 : Text) (left right left1 right1 : Image) (levels c : UInt64),
    o.leftImage = some l ∧ o.rightImage = some r ∧ o1.leftImage = some l1 ∧ o1.rightImage = some r1 ∧
    readImage world l = .ok left ∧ readImage world r = .ok right ∧ readImage world1 l1 = .ok left1 ∧ readImage world1 r1 = .ok right1 ∧
    levelsOption left o.disparityLevels = .ok levels ∧ levelsOption left1 o1.disparityLevels = .ok levels ∧
    weightNumber o.cleanness = .ok c ∧ weightNumber o.smoothness = .ok 0 ∧
    weightNumber o1.cleanness = .ok c ∧ weightNumber o1.smoothness = .ok 0 ∧ left.Rearranged σ left1 ∧ right.Rearranged σ right1

/-- The texts are those of two maps, and rows of the second one are those of the first one rearranged. -/
def RearrangedText (σ : ℕ → ℕ) (text text1 : Text) : Prop :=
  ∃ im im1 : Image, writePgm (some im) = .ok text ∧ writePgm (some im1) = .ok text1 ∧ im.Rearranged σ im1 ∧ im.maxValue = im1.maxValue

theorem World.Result.rearranged {F F' H : Type} [FloatOps F] [FloatOps F'] [FloatOps H] [LawfulFloat H] (hz : ∀ a : H, mul (ofNat 0) a = zero)
    {σ : ℕ → ℕ} {world : World F} {world1 : World F'} {o o1 : Options} {out out1 : Outcome} {path text path1 text1 : Text} (hr : world.RearrangesRows σ world1 o o1)
    (h : world.Result H (.parsed o) out path text) (h1 : world1.Result H (.parsed o1) out1 path1 text1) :
    RearrangedText σ text text1 := by
  obtain ⟨l, r, l', r', left, right, left', right', levels, c, a1, a2, a3, a4, a5, a6, a7, a8, a9, a10, a11, a12, a13, a14, hl, hr⟩ := hr
  obtain ⟨-, -, _, _, _, _, _, _, _, _, im, e, -, b1, b2, b3, b4, b5, b6, b7, b8, b9, -, -, -, t, b10⟩ := h
  obtain ⟨-, -, _, _, _, _, _, _, _, _, im', e', -, d1, d2, d3, d4, d5, d6, d7, d8, d9, -, -, -, t', d10⟩ := h1
  cases e; cases e'
  cases a1.symm.trans b1; cases a2.symm.trans b2; cases a3.symm.trans d1; cases a4.symm.trans d2
  cases a5.symm.trans b3; cases a6.symm.trans b4; cases a7.symm.trans d3; cases a8.symm.trans d4
  cases a9.symm.trans b5; cases a10.symm.trans d5
  cases a11.symm.trans b6; cases a12.symm.trans b7; cases a13.symm.trans d6; cases a14.symm.trans d7
  refine ⟨im, im', b9, d9, ⟨?_, ?_, ?_, ?_⟩, b10.levels.trans d10.levels.symm⟩
  · rw [b10.width, d10.width]
    exact hr.width
  · rw [b10.height, d10.height]
    exact hr.into
  · rw [b10.height, d10.height]
    exact hr.onto
  · rw [d10.width, d10.height]
    exact (C118_best_map (rearrangedGraph hl hr d8) (flatGraph hz) (flatGraph hz) b10 d10).2

section
variable {B B' : Nat} {jobs jobs' : UInt64} {world world' : World Double}

/-- **C118**. Whatever the images, cleanness, threads and schedules: if smoothness is zero and rows of both images are rearranged, then rows of the
map are rearranged in the same way (if both executions write). -/
theorem C118_rearranged (hw : world.Reasonable jobs) (hw' : world'.Reasonable jobs') (hruns : world.Runs B jobs) (hruns' : world'.Runs B' jobs')
    (hcpu : world.CpuOnly) (hcpu' : world'.CpuOnly) {σ : ℕ → ℕ} {o o' : Options} (hr : world.RearrangesRows σ world' o o') (out out' : Outcome)
    (h : program world (.parsed o) = .ok out) (h' : program world' (.parsed o') = .ok out') (path text path' text' : Text)
    (hwr : out.written = some (path, text)) (hwr' : out'.written = some (path', text')) : RearrangedText σ text text' :=
  World.Result.rearranged Format.zero_mul' hr (World.result_num hw hruns hcpu h hwr) (World.result_num hw' hruns' hcpu' h' hwr')

/-- The same with devices that compute with `float`, if cleanness multiplied by squares of differences of intensities is at most `2^24`. -/
theorem C118_rearranged_device {allowed allowed' : (Nat → Nat) → Prop} (hw : world.Reasonable jobs) (hw' : world'.Reasonable jobs')
    (hruns : world.Runs B jobs) (hruns' : world'.Runs B' jobs') (hdev : world.Devices (Ieee.convert : Double → Single) allowed)
    (hdev' : world'.Devices (Ieee.convert : Double → Single) allowed') {σ : ℕ → ℕ} {o o' : Options}
    (hin : ∀ l r, o.leftImage = some l → o.rightImage = some r → world.InRange 24 o l r)
    (hin' : ∀ l r, o'.leftImage = some l → o'.rightImage = some r → world'.InRange 24 o' l r)
    (hr : world.RearrangesRows σ world' o o') (out out' : Outcome) (h : program world (.parsed o) = .ok out)
    (h' : program world' (.parsed o') = .ok out') (path text path' text' : Text)
    (hwr : out.written = some (path, text)) (hwr' : out'.written = some (path', text')) : RearrangedText σ text text' :=
  World.Result.rearranged (fun a => by show ((0 : ℕ) : ℚ) * a = 0; rw [Nat.cast_zero, zero_mul]) hr
    (C93_float_device_partial hw hruns hdev _ (by rintro _ l r ⟨⟩ h1 h2; exact hin l r h1 h2) out h path text hwr)
    (C93_float_device_partial hw' hruns' hdev' _ (by rintro _ l r ⟨⟩ h1 h2; exact hin' l r h1 h2) out' h' path' text' hwr')

end

/-- Non-vacuity: rows are exchanged and so are those of the map. -/
example : ∃ out out', (imagesWorld "P2 4 2 9 4 0 5 4 1 3 6 6" "P2 4 2 9 5 1 3 0 6 1 3 6" (fun _ => solveCsp 1) none).RearrangesRows (1 - ·)
      (imagesWorld "P2 4 2 9 1 3 6 6 4 0 5 4" "P2 4 2 9 6 1 3 6 5 1 3 0" (fun _ => solveCsp 1) none) (imagesOptions "3" "1" "0" none) (imagesOptions "3" "1" "0" none) ∧
    program (imagesWorld "P2 4 2 9 4 0 5 4 1 3 6 6" "P2 4 2 9 5 1 3 0 6 1 3 6" (fun _ => solveCsp 1) none)
      (.parsed (imagesOptions "3" "1" "0" none)) = .ok out ∧
    program (imagesWorld "P2 4 2 9 1 3 6 6 4 0 5 4" "P2 4 2 9 6 1 3 6 5 1 3 0" (fun _ => solveCsp 1) none)
      (.parsed (imagesOptions "3" "1" "0" none)) = .ok out' ∧
    out.written = some (bytes "o", bytes "P2\n4 2\n3\n2 2 1 0\n1 0 0 0\n") ∧
    out'.written = some (bytes "o", bytes "P2\n4 2\n3\n1 0 0 0\n2 2 1 0\n") := by
  have hrep : ∀ a b c d e f g h : UInt64, (Image.mk 4 2 9 #[a, b, c, d, e, f, g, h]).Rearranged (1 - ·) ⟨4, 2, 9, #[e, f, g, h, a, b, c, d]⟩ := by
    refine fun a b c d e f g h => ⟨rfl, fun y hy => ?_, fun y hy => ⟨1 - y, ?_, ?_⟩, fun x y hx hy => ?_⟩
    · show 1 - y < 2
      omega
    · show 1 - y < 2
      omega
    · have hy : y < 2 := hy
      show 1 - (1 - y) = y
      omega
    · have hx : x < 4 := hx
      have hy : y < 2 := hy
      interval_cases x <;> interval_cases y <;> rfl
  exact ⟨{ exit := 0, written := some (bytes "o", bytes "P2\n4 2\n3\n2 2 1 0\n1 0 0 0\n") },
    { exit := 0, written := some (bytes "o", bytes "P2\n4 2\n3\n1 0 0 0\n2 2 1 0\n") },
    ⟨bytes "l", bytes "r", bytes "l", bytes "r", ⟨4, 2, 9, #[4, 0, 5, 4, 1, 3, 6, 6]⟩, ⟨4, 2, 9, #[5, 1, 3, 0, 6, 1, 3, 6]⟩,
      ⟨4, 2, 9, #[1, 3, 6, 6, 4, 0, 5, 4]⟩, ⟨4, 2, 9, #[6, 1, 3, 6, 5, 1, 3, 0]⟩, 3, 1, rfl, rfl, rfl, rfl, by decide +kernel, by decide +kernel,
      by decide +kernel, by decide +kernel, by decide +kernel, by decide +kernel, by decide +kernel, by decide +kernel, by decide +kernel,
      by decide +kernel, hrep 4 0 5 4 1 3 6 6, hrep 5 1 3 0 6 1 3 6⟩, by decide +kernel, by decide +kernel, rfl, rfl⟩

/-- Rows are not independent even without smoothness: the map for the first row of the images alone is not the first row of the map, since the
threshold is that of the whole image. -/
theorem C118_other_rows : ∃ (world world' : World Double) (o : Options), world.Reasonable 1 ∧ world.Runs 64 1 ∧ world.CpuOnly ∧
    world'.Reasonable 1 ∧ world'.Runs 64 1 ∧ world'.CpuOnly ∧ weightNumber o.smoothness = .ok 0 ∧
    readImage world (bytes "l") = .ok ⟨4, 1, 9, #[4, 0, 5, 4]⟩ ∧ readImage world (bytes "r") = .ok ⟨4, 1, 9, #[5, 1, 3, 0]⟩ ∧
    readImage world' (bytes "l") = .ok ⟨4, 2, 9, #[4, 0, 5, 4, 1, 3, 6, 6]⟩ ∧ readImage world' (bytes "r") = .ok ⟨4, 2, 9, #[5, 1, 3, 0, 6, 1, 3, 6]⟩ ∧
    program world (.parsed o) = .ok { exit := 0, written := some (bytes "o", bytes "P2\n4 1\n3\n0 0 1 0\n") } ∧
    program world' (.parsed o) = .ok { exit := 0, written := some (bytes "o", bytes "P2\n4 2\n3\n2 2 1 0\n1 0 0 0\n") } :=
  ⟨imagesWorld "P2 4 1 9 4 0 5 4" "P2 4 1 9 5 1 3 0" (fun _ => solveCsp 1) none,
    imagesWorld "P2 4 2 9 4 0 5 4 1 3 6 6" "P2 4 2 9 5 1 3 0 6 1 3 6" (fun _ => solveCsp 1) none, imagesOptions "3" "1" "0" none,
    imagesWorld_reasonable _ _ _ _ (.inl rfl), .inr rfl, ⟨rfl, rfl⟩, imagesWorld_reasonable _ _ _ _ (.inl rfl), .inr rfl, ⟨rfl, rfl⟩,
    by decide +kernel, by decide +kernel, by decide +kernel, by decide +kernel, by decide +kernel, by decide +kernel, by decide +kernel⟩

/-- It is not enough that one of the executions writes: for images `4 4 1 2, 1 5 6 0` and `4 2 0 2, 6 2 5 0` a map is written, with exchanged rows
no labeling is found. -/
theorem C118_not_found : ∃ (world world' : World Double) (o : Options), world.Reasonable 1 ∧ world.Runs 64 1 ∧ world.CpuOnly ∧
    world'.Reasonable 1 ∧ world'.Runs 64 1 ∧ world'.CpuOnly ∧
    program world (.parsed o) = .ok { exit := 0, written := some (bytes "o", bytes "P2\n4 2\n3\n0 2 1 0\n1 0 0 0\n") } ∧
    program world' (.parsed o) =
      .ok { exit := 0, err := [.logicError "Cannot find labeling. This should not ever happen. Refer to the developers."] } ∧
    readImage world (bytes "l") = .ok ⟨4, 2, 9, #[4, 4, 1, 2, 1, 5, 6, 0]⟩ ∧ readImage world (bytes "r") = .ok ⟨4, 2, 9, #[4, 2, 0, 2, 6, 2, 5, 0]⟩ ∧
    readImage world' (bytes "l") = .ok ⟨4, 2, 9, #[1, 5, 6, 0, 4, 4, 1, 2]⟩ ∧ readImage world' (bytes "r") = .ok ⟨4, 2, 9, #[6, 2, 5, 0, 4, 2, 0, 2]⟩ ∧
    weightNumber o.smoothness = .ok 0 :=
  ⟨imagesWorld "P2 4 2 9 4 4 1 2 1 5 6 0" "P2 4 2 9 4 2 0 2 6 2 5 0" (fun _ => solveCsp 1) none,
    imagesWorld "P2 4 2 9 1 5 6 0 4 4 1 2" "P2 4 2 9 6 2 5 0 4 2 0 2" (fun _ => solveCsp 1) none, imagesOptions "3" "1" "0" none,
    imagesWorld_reasonable _ _ _ _ (.inl rfl), .inr rfl, ⟨rfl, rfl⟩, imagesWorld_reasonable _ _ _ _ (.inl rfl), .inr rfl, ⟨rfl, rfl⟩,
    by decide +kernel, by decide +kernel, by decide +kernel, by decide +kernel, by decide +kernel, by decide +kernel, by decide +kernel⟩

end SP
