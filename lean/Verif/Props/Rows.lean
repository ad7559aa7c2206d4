import Verif.Props.Ratio
import Mathlib.Tactic.IntervalCases
/-!
# C112, C113: images of equal rows, images turned upside down

If all rows of the left image are equal, and so are those of the right one, then all rows of the map are equal to the map for images that
consist of one such row.

If both images are turned upside down, then the least threshold is the same and the labelings feasible at it are those turned upside down, but
the best of them is chosen in the order of rows, so the map may be another one.
-/
namespace SP
open FloatOps ConstraintGraph Gpu
set_option maxRecDepth 1000000

/-! ## Equal rows -/

/-- All rows of the image are equal to the only row of the image `row`. -/
structure Image.Repeats (im row : Image) : Prop where
  width : im.width = row.width
  height : row.height = 1
  row : ∀ x y, x < im.width.toNat → y < im.height.toNat → im.at x y = row.at x 0

section
variable {F : Type} [FloatOps F]

/-- The graph `g1` has one row, and penalties in each row of `g` are those of `g1`; no edge between equal disparities of two rows is worse than
another edge between these pixels. -/
structure RepeatsGraph (g g1 : DisparityGraph F) : Prop where
  width : g1.right.width = g.right.width
  height : g1.h = 1
  positive : 0 < g.h
  levels : g1.disparityLevels = g.disparityLevels
  node : ∀ x y d, g.IsNode x y d → g.nodeQ x y d = g1.nodeQ x 0 d
  row : ∀ x y k d d', k < 2 → g.IsEdge x y k d d' → g.edgeQ x y k d d' = g1.edgeQ x 0 k d d'
  column : ∀ x y k d e e', 2 ≤ k → g.IsEdge x y k e e' → le (g.edgeQ x y k d d) (g.edgeQ x y k e e') = true

variable {g g1 : DisparityGraph F}

theorem RepeatsGraph.w_eq (h : RepeatsGraph g g1) : g1.w = g.w := by
  simp only [DisparityGraph.w, h.width]

theorem RepeatsGraph.levels_eq (h : RepeatsGraph g g1) : g1.levels = g.levels := by
  simp only [DisparityGraph.levels, h.levels]

theorem RepeatsGraph.isNode (h : RepeatsGraph g g1) {y : ℕ} (hy : y < g.h) (x d : ℕ) : g1.IsNode x 0 d ↔ g.IsNode x y d := by
  simp only [DisparityGraph.IsNode, h.w_eq, h.height, h.levels_eq, hy, Nat.zero_lt_one, true_and]

theorem RepeatsGraph.hasNb (h : RepeatsGraph g g1) {y : ℕ} (hy : y < g.h) (x k : ℕ) :
    HasNb g1.w g1.h x 0 k ↔ HasNb g.w g.h x y k ∧ k < 2 := by
  simp only [HasNb, h.w_eq, h.height]
  omega

theorem nby_row {y k : ℕ} (hk : k < 2) : nby y k = y := by
  unfold nby
  rw [if_neg (by omega), if_neg (by omega)]

theorem nbx_column {x k : ℕ} (hk : 2 ≤ k) : nbx x k = x := by
  unfold nbx
  rw [if_neg (by omega), if_neg (by omega)]

theorem RepeatsGraph.isEdge (h : RepeatsGraph g g1) {y : ℕ} (hy : y < g.h) (x k d d' : ℕ) :
    g1.IsEdge x 0 k d d' ↔ g.IsEdge x y k d d' ∧ k < 2 := by
  unfold DisparityGraph.IsEdge
  rw [h.hasNb hy, h.isNode hy]
  constructor
  · rintro ⟨⟨h1, hk⟩, h2, h3, h4⟩
    rw [nby_row hk] at h3 ⊢
    exact ⟨⟨h1, h2, (h.isNode hy _ _).1 h3, h4⟩, hk⟩
  · rintro ⟨⟨h1, h2, h3, h4⟩, hk⟩
    rw [nby_row hk] at h3 ⊢
    exact ⟨⟨h1, hk⟩, h2, (h.isNode hy _ _).2 h3, h4⟩

/-- Each row of a feasible labeling is feasible for one row. -/
theorem RepeatsGraph.down (h : RepeatsGraph g g1) {t : F} {L : ℕ → ℕ → ℕ} (hL : g.FeasibleAt t L) {y : ℕ} (hy : y < g.h) :
    g1.FeasibleAt t (fun x _ => L x y) := by
  intro x y' hx hy'
  rw [h.height] at hy'
  obtain rfl : y' = 0 := by omega
  rw [h.w_eq] at hx
  obtain ⟨h1, h2, h3⟩ := hL x y hx hy
  refine ⟨(h.isNode hy _ _).2 h1, fun d hd => ?_, fun k hk => ?_⟩
  · have hd' := (h.isNode hy _ _).1 hd
    rw [← h.node x y _ h1, ← h.node x y _ hd']
    exact h2 d hd'
  · obtain ⟨hk, hk2⟩ := (h.hasNb hy _ _).1 hk
    obtain ⟨h4, h5⟩ := h3 k hk
    rw [nby_row hk2] at h4 h5
    refine ⟨(h.isEdge hy _ _ _ _).2 ⟨h4, hk2⟩, fun d d' hd => ?_⟩
    obtain ⟨hd, -⟩ := (h.isEdge hy _ _ _ _).1 hd
    rw [← h.row x y _ _ _ hk2 h4, ← h.row x y _ _ _ hk2 hd]
    exact h5 d d' hd

/-- A labeling feasible for one row is feasible if it is repeated in all rows. -/
theorem RepeatsGraph.up [LawfulFloat F] (h : RepeatsGraph g g1) {t : F} {R : ℕ → ℕ} (hR : g1.FeasibleAt t (fun x _ => R x)) :
    g.FeasibleAt t (fun x _ => R x) := by
  intro x y hx hy
  obtain ⟨h1, h2, h3⟩ := hR x 0 (h.w_eq ▸ hx) (h.height ▸ Nat.zero_lt_one)
  have n1 := (h.isNode hy _ _).1 h1
  refine ⟨n1, fun d hd => ?_, fun k hk => ?_⟩
  · rw [h.node x y _ n1, h.node x y _ hd]
    exact h2 d ((h.isNode hy _ _).2 hd)
  · rcases Nat.lt_or_ge k 2 with hk2 | hk2
    · obtain ⟨h4, h5⟩ := h3 k ((h.hasNb hy _ _).2 ⟨hk, hk2⟩)
      obtain ⟨h4, -⟩ := (h.isEdge hy _ _ _ _).1 h4
      refine ⟨h4, fun d d' hd => ?_⟩
      rw [h.row x y _ _ _ hk2 h4, h.row x y _ _ _ hk2 hd]
      exact h5 d d' ((h.isEdge hy _ _ _ _).2 ⟨hd, hk2⟩)
    · have hy' : nby y k < g.h := by
        unfold HasNb at hk
        unfold nby
        split_ifs <;> omega
      rw [nbx_column hk2]
      refine ⟨⟨hk, n1, ?_, ⟨fun h0 => by omega, fun h0 => by omega⟩⟩, fun d d' hd => ?_⟩
      · rw [nbx_column hk2]
        exact (h.isNode hy' _ _).1 h1
      · have e0 : le (zero : F) t = true := by
          have := h2 _ h1
          rwa [LawfulFloat.sub_self] at this
        have := LawfulFloat.sub_mono _ _ (g.edgeQ x y k d d') (h.column x y k (R x) d d' hk2 hd)
        rw [LawfulFloat.sub_self] at this
        exact LawfulFloat.le_trans _ _ _ this e0

/-- Rows of the best map are equal. -/
theorem C112_rows [LawfulFloat F] (h : RepeatsGraph g g1) {t : F} {im : Image} (hb : BestMap g t im) :
    ∀ x y, x < g.w → y < g.h → im.at x y = im.at x 0 := by
  intro x
  induction x using Nat.strongRecOn with
  | _ x ihx =>
    intro y
    induction y using Nat.strongRecOn with
    | _ y ihy =>
      intro hx hy
      have f0 := h.up (R := fun x => im.at x 0) (h.down hb.best.1 h.positive)
      have fy := h.up (R := fun x => im.at x y) (h.down hb.best.1 hy)
      obtain ⟨a1, a2⟩ := hb.best.2 _ f0 x y hx hy fun x' y' hx' hy' hlt => by
        rcases hlt with hlt | ⟨rfl, hlt⟩
        · exact (ihx x' hlt y' hx' hy').symm
        · exact (ihy y' hlt hx' hy').symm
      obtain ⟨b1, b2⟩ := hb.best.2 _ fy x 0 hx h.positive fun x' y' hx' hy' hlt => by
        rcases hlt with hlt | ⟨rfl, hlt⟩
        · exact (ihx x' hlt y hx' hy).trans (ihx x' hlt y' hx' hy').symm
        · omega
      have e : ∀ d, g.IsNode x y d → g.nodeQ x y d = g.nodeQ x 0 d := fun d hd => by
        rw [h.node x y d hd, h.node x 0 d ((h.isNode h.positive _ _).1 ((h.isNode hy _ _).2 hd))]
      rw [e _ (hb.best.1 x y hx hy).1, e _ (f0 x y hx hy).1] at a1 a2
      rcases Nat.lt_trichotomy (im.at x y) (im.at x 0) with hlt | heq | hlt
      · have := b2 hlt
        rw [LawfulFloat.lt_iff, a1] at this
        cases this
      · exact heq
      · have := a2 hlt
        rw [LawfulFloat.lt_iff, b1] at this
        cases this

/-- Each row of the best map is the best map for one row, and the least threshold is the same. -/
theorem C112_best_map [LawfulFloat F] (h : RepeatsGraph g g1) {t t1 : F} {im im1 : Image} (hb : BestMap g t im) (hb1 : BestMap g1 t1 im1) :
    t = t1 ∧ im.Repeats im1 := by
  have e1 : g1.FeasibleAt t1 (fun x _ => im1.at x 0) := by
    intro x y hx hy
    have hy' := hy
    rw [h.height] at hy'
    obtain rfl : y = 0 := by omega
    obtain ⟨h1, h2, h3⟩ := hb1.best.1 x 0 hx hy
    refine ⟨h1, h2, fun k hk => ?_⟩
    have := h3 k hk
    rwa [nby_row ((h.hasNb h.positive _ _).1 hk).2] at this
  obtain rfl : t = t1 := LawfulFloat.le_antisymm _ _ (hb.least _ _ (h.up e1)) (hb1.least _ _ (h.down hb.best.1 h.positive))
  have key : ∀ x y, x < g.w → y < g.h → im.at x y = im1.at x 0 := by
    intro x
    induction x using Nat.strongRecOn with
    | _ x ihx =>
      intro y
      induction y using Nat.strongRecOn with
      | _ y ihy =>
        intro hx hy
        obtain ⟨a1, a2⟩ := hb.best.2 _ (h.up e1) x y hx hy fun x' y' hx' hy' hlt => by
          rcases hlt with hlt | ⟨rfl, hlt⟩
          · exact (ihx x' hlt y' hx' hy').symm
          · exact (ihy y' hlt hx' hy').symm
        obtain ⟨b1, b2⟩ := hb1.best.2 _ (h.down hb.best.1 hy) x 0 (h.w_eq ▸ hx) (h.height ▸ Nat.zero_lt_one) fun x' y' hx' hy' hlt => by
          rw [h.height] at hy'
          obtain rfl : y' = 0 := by omega
          rcases hlt with hlt | ⟨rfl, hlt⟩
          · exact ihx x' hlt y (h.w_eq ▸ hx') hy
          · omega
        have n1 := (hb.best.1 x y hx hy).1
        have n2 := (h.up e1 x y hx hy).1
        rw [h.node x y _ n1, h.node x y _ n2] at a1 a2
        rcases Nat.lt_trichotomy (im.at x y) (im1.at x 0) with hlt | heq | hlt
        · have := b2 hlt
          rw [LawfulFloat.lt_iff, a1] at this
          cases this
        · exact heq
        · have := a2 hlt
          rw [LawfulFloat.lt_iff, b1] at this
          cases this
  refine ⟨rfl, hb.width.trans (h.width.symm.trans hb1.width.symm), ?_, fun x y hx hy => key x y ?_ ?_⟩
  · rw [hb1.height]
    exact UInt64.toNat_inj.1 h.height
  · rw [hb.width] at hx; exact hx
  · rw [hb.height] at hy; exact hy

/-- Graphs of images. -/
theorem repeatsGraph [LawfulFloat F] {left right left1 right1 : Image} {levels : UInt64} {c s : F} (hl : left.Repeats left1) (hr : right.Repeats right1)
    (hin : AcceptedInput left right levels c s) : RepeatsGraph (freshGraph left right levels c s) (freshGraph left1 right1 levels c s) := by
  have hw : left.width = right.width := hin.2.2.2.2.1
  have hh : left.height = right.height := hin.2.2.2.2.2.1
  have hs : le (zero : F) s = true := by
    have := hin.2.2.2.2.2.2.2.2.1
    rcases LawfulFloat.le_total (zero : F) s with h | h
    · exact h
    · by_contra hn
      rw [Bool.not_eq_true, ← LawfulFloat.lt_iff, this] at hn
      cases hn
  refine ⟨hr.width.symm, ?_, ?_, rfl, fun x y d hd => ?_, fun x y k d d' hk _ => ?_, fun x y k d e e' hk _ => ?_⟩
  · show right1.height.toNat = 1
    rw [hr.height]; rfl
  · show 0 < right.height.toNat
    exact hin.2.1.2.1
  · obtain ⟨h1, h2, -, h4⟩ := hd
    rw [fresh_nodeQ, fresh_nodeQ, hr.row x y h1 h2, hl.row (x + d) y (hw ▸ h4) (hh ▸ h2)]
  · rw [fresh_edgeQ, fresh_edgeQ]
  · rw [fresh_edgeQ, fresh_edgeQ, LawfulFloat.sub_self]
    refine LawfulFloat.mul_mono _ _ _ hs ?_
    have : sqr (zero : F) = zero := LawfulFloat.mul_zero _
    rw [this]
    exact LawfulFloat.sqr_nonneg _

end

/-! ## The program -/

/-- Options and images of two executions: rows of the first images are equal to the only rows of the second ones, everything else is the same. -/
def World.RepeatsRow {F F' : Type} [FloatOps F] [FloatOps F'] (world : World F) (world1 : World F') (o o1 : Options) : Prop :=
  ∃ (l r l1 r1 : Text) (left right left1 right1 : Image) (levels c s : UInt64),
    o.leftImage = some l ∧ o.rightImage = some r ∧ o1.leftImage = some l1 ∧ o1.rightImage = some r1 ∧
    readImage world l = .ok left ∧ readImage world r = .ok right ∧ readImage world1 l1 = .ok left1 ∧ readImage world1 r1 = .ok right1 ∧
    levelsOption left o.disparityLevels = .ok levels ∧ levelsOption left1 o1.disparityLevels = .ok levels ∧
    weightNumber o.cleanness = .ok c ∧ weightNumber o.smoothness = .ok s ∧
    weightNumber o1.cleanness = .ok c ∧ weightNumber o1.smoothness = .ok s ∧ left.Repeats left1 ∧ right.Repeats right1

/-- The texts are those of two maps, and rows of the first one are equal to the only row of the second one. -/
def RepeatedText (text text1 : Text) : Prop :=
  ∃ im im1 : Image, writePgm (some im) = .ok text ∧ writePgm (some im1) = .ok text1 ∧ im.Repeats im1 ∧ im.maxValue = im1.maxValue

theorem World.Result.repeats {F F' H : Type} [FloatOps F] [FloatOps F'] [FloatOps H] [LawfulFloat H] {world : World F} {world1 : World F'}
    {o o1 : Options} {out out1 : Outcome} {path text path1 text1 : Text} (hr : world.RepeatsRow world1 o o1)
    (h : world.Result H (.parsed o) out path text) (h1 : world1.Result H (.parsed o1) out1 path1 text1) : RepeatedText text text1 := by
  obtain ⟨l, r, l', r', left, right, left', right', levels, c, s, a1, a2, a3, a4, a5, a6, a7, a8, a9, a10, a11, a12, a13, a14, hl, hr⟩ := hr
  obtain ⟨-, -, _, _, _, _, _, _, _, _, im, e, -, b1, b2, b3, b4, b5, b6, b7, b8, b9, -, -, -, t, b10⟩ := h
  obtain ⟨-, -, _, _, _, _, _, _, _, _, im', e', -, d1, d2, d3, d4, d5, d6, d7, d8, d9, -, -, -, t', d10⟩ := h1
  cases e; cases e'
  cases a1.symm.trans b1; cases a2.symm.trans b2; cases a3.symm.trans d1; cases a4.symm.trans d2
  cases a5.symm.trans b3; cases a6.symm.trans b4; cases a7.symm.trans d3; cases a8.symm.trans d4
  cases a9.symm.trans b5; cases a10.symm.trans d5
  cases a11.symm.trans b6; cases a12.symm.trans b7; cases a13.symm.trans d6; cases a14.symm.trans d7
  exact ⟨im, im', b9, d9, (C112_best_map (repeatsGraph hl hr b8) b10 d10).2, b10.levels.trans d10.levels.symm⟩

/-- The file is the best map in the arithmetic of `double` without infinities and zeros of different signs, which is lawful. -/
theorem World.result_num {B : Nat} {jobs : UInt64} {world : World Double} (hw : world.Reasonable jobs) (hruns : world.Runs B jobs)
    (hcpu : world.CpuOnly) {cl : CommandLine} {out : Outcome} (h : program world cl = .ok out) {path text : Text}
    (hwr : out.written = some (path, text)) : world.Result Format.binary64.Num cl out path text := by
  obtain ⟨world', h1, h2, h3⟩ := World.pullDevice carrier_double carrier_double (fun _ => rfl) hruns hcpu.devices
  exact World.result carrier_double carrier_double.self (fun _ _ _ _ => trivial) (.self fun _ => True) h1 hw h2 h3 .id
    (fun o l r _ _ _ => world.inRange_192 o l r) h hwr

section
variable {B B' : Nat} {jobs jobs' : UInt64} {world world' : World Double}

/-- **C112**. Whatever the weights, threads and schedules: if rows of the left image are equal and so are rows of the right one, then rows of
the written map are equal to the map written for images of one such row (if both executions write). -/
theorem C112_equal_rows (hw : world.Reasonable jobs) (hw' : world'.Reasonable jobs') (hruns : world.Runs B jobs) (hruns' : world'.Runs B' jobs')
    (hcpu : world.CpuOnly) (hcpu' : world'.CpuOnly) {o o' : Options} (hr : world.RepeatsRow world' o o') (out out' : Outcome)
    (h : program world (.parsed o) = .ok out) (h' : program world' (.parsed o') = .ok out') (path text path' text' : Text)
    (hwr : out.written = some (path, text)) (hwr' : out'.written = some (path', text')) : RepeatedText text text' :=
  World.Result.repeats hr (World.result_num hw hruns hcpu h hwr) (World.result_num hw' hruns' hcpu' h' hwr')

/-- The same with devices that compute with `float`, if weights multiplied by squares of differences of intensities or levels are at most
`2^24`. -/
theorem C112_equal_rows_device {allowed allowed' : (Nat → Nat) → Prop} (hw : world.Reasonable jobs) (hw' : world'.Reasonable jobs')
    (hruns : world.Runs B jobs) (hruns' : world'.Runs B' jobs') (hdev : world.Devices (Ieee.convert : Double → Single) allowed)
    (hdev' : world'.Devices (Ieee.convert : Double → Single) allowed') {o o' : Options}
    (hin : ∀ l r, o.leftImage = some l → o.rightImage = some r → world.InRange 24 o l r)
    (hin' : ∀ l r, o'.leftImage = some l → o'.rightImage = some r → world'.InRange 24 o' l r)
    (hr : world.RepeatsRow world' o o') (out out' : Outcome) (h : program world (.parsed o) = .ok out)
    (h' : program world' (.parsed o') = .ok out') (path text path' text' : Text)
    (hwr : out.written = some (path, text)) (hwr' : out'.written = some (path', text')) : RepeatedText text text' :=
  World.Result.repeats hr (C93_float_device_partial hw hruns hdev _ (by rintro _ l r ⟨⟩ h1 h2; exact hin l r h1 h2) out h path text hwr)
    (C93_float_device_partial hw' hruns' hdev' _ (by rintro _ l r ⟨⟩ h1 h2; exact hin' l r h1 h2) out' h' path' text' hwr')


/-- The first row of an image. -/
def Image.firstRow (im : Image) : Image := { im with height := 1, data := im.data.extract 0 im.width.toNat }

theorem Image.firstRow_at (im : Image) {x : ℕ} (hx : x < im.width.toNat) : im.firstRow.at x 0 = im.at x 0 := by
  simp only [Image.firstRow, Image.at, pidx, Nat.mul_zero, Nat.add_zero, Array.getD_eq_getD_getElem?, Array.getElem?_extract, Nat.zero_add]
  by_cases h : x < im.data.size
  · rw [if_pos (by omega)]
  · rw [if_neg (by omega), Array.getElem?_eq_none (by omega)]

/-- All rows of the image are equal. -/
def Image.EqualRows (im : Image) : Prop := ∀ x y, x < im.width.toNat → y < im.height.toNat → im.at x y = im.at x 0

theorem Image.EqualRows.repeats {im : Image} (h : im.EqualRows) : im.Repeats im.firstRow :=
  ⟨rfl, rfl, fun x y hx hy => (h x y hx hy).trans (im.firstRow_at hx).symm⟩

/-- Whatever the weights, threads and schedules: if rows of the left image are equal and so are rows of the right one, then rows of the written
map are equal. -/
theorem C112_written (hw : world.Reasonable jobs) (hruns : world.Runs B jobs) (hcpu : world.CpuOnly) {o : Options} {l r : Text}
    {left right : Image} (h1 : o.leftImage = some l) (h2 : o.rightImage = some r) (h3 : readImage world l = .ok left)
    (h4 : readImage world r = .ok right) (hl : left.EqualRows) (hr : right.EqualRows) (out : Outcome) (h : program world (.parsed o) = .ok out)
    (path text : Text) (hwr : out.written = some (path, text)) : ∃ im : Image, writePgm (some im) = .ok text ∧ im.EqualRows := by
  obtain ⟨-, -, _, _, _, _, _, _, _, _, im, e, -, b1, b2, b3, b4, b5, b6, b7, b8, b9, -, -, -, t, b10⟩ := World.result_num hw hruns hcpu h hwr
  cases e
  cases h1.symm.trans b1; cases h2.symm.trans b2; cases h3.symm.trans b3; cases h4.symm.trans b4
  refine ⟨im, b9, fun x y hx hy => C112_rows (repeatsGraph hl.repeats hr.repeats b8) b10 x y ?_ ?_⟩
  · rw [b10.width] at hx; exact hx
  · rw [b10.height] at hy; exact hy

end

-- rows that are repeated three times, and one such row
example : ∃ out out', (imagesWorld "P2 3 3 9 1 2 9 1 2 9 1 2 9" "P2 3 3 9 2 8 8 2 8 8 2 8 8" (fun _ => solveCsp 1) none).RepeatsRow
      (imagesWorld "P2 3 1 9 1 2 9" "P2 3 1 9 2 8 8" (fun _ => solveCsp 1) none) (imagesOptions "2" "1" "1" none) (imagesOptions "2" "1" "1" none) ∧
    program (imagesWorld "P2 3 3 9 1 2 9 1 2 9 1 2 9" "P2 3 3 9 2 8 8 2 8 8 2 8 8" (fun _ => solveCsp 1) none)
      (.parsed (imagesOptions "2" "1" "1" none)) = .ok out ∧
    program (imagesWorld "P2 3 1 9 1 2 9" "P2 3 1 9 2 8 8" (fun _ => solveCsp 1) none) (.parsed (imagesOptions "2" "1" "1" none)) = .ok out' ∧
    out.written = some (bytes "o", bytes "P2\n3 3\n2\n1 1 0\n1 1 0\n1 1 0\n") ∧ out'.written = some (bytes "o", bytes "P2\n3 1\n2\n1 1 0\n") := by
  have hrep : ∀ a b c : UInt64, (Image.mk 3 3 9 #[a, b, c, a, b, c, a, b, c]).Repeats ⟨3, 1, 9, #[a, b, c]⟩ := by
    refine fun a b c => ⟨rfl, rfl, fun x y hx hy => ?_⟩
    have hx : x < 3 := hx
    have hy : y < 3 := hy
    interval_cases x <;> interval_cases y <;> rfl
  exact ⟨{ exit := 0, written := some (bytes "o", bytes "P2\n3 3\n2\n1 1 0\n1 1 0\n1 1 0\n") },
    { exit := 0, written := some (bytes "o", bytes "P2\n3 1\n2\n1 1 0\n") },
    ⟨bytes "l", bytes "r", bytes "l", bytes "r", ⟨3, 3, 9, #[1, 2, 9, 1, 2, 9, 1, 2, 9]⟩, ⟨3, 3, 9, #[2, 8, 8, 2, 8, 8, 2, 8, 8]⟩,
      ⟨3, 1, 9, #[1, 2, 9]⟩, ⟨3, 1, 9, #[2, 8, 8]⟩, 2, 1, 1, rfl, rfl, rfl, rfl, by decide +kernel, by decide +kernel, by decide +kernel,
      by decide +kernel, by decide +kernel, by decide +kernel, by decide +kernel, by decide +kernel, by decide +kernel, by decide +kernel,
      hrep 1 2 9, hrep 2 8 8⟩, by decide +kernel, by decide +kernel, rfl, rfl⟩

/-! ## Upside down -/

/-- The image turned upside down. -/
structure Image.UpsideDown (im im' : Image) : Prop where
  width : im'.width = im.width
  height : im'.height = im.height
  row : ∀ x y, x < im.width.toNat → y < im.height.toNat → im'.at x y = im.at x (im.height.toNat - 1 - y)

/-- The number of the neighbor in the image turned upside down. -/
def turn (k : ℕ) : ℕ := if k = 2 then 3 else if k = 3 then 2 else k

/-- The labeling turned upside down. -/
def turned (h : ℕ) (L : ℕ → ℕ → ℕ) : ℕ → ℕ → ℕ := fun x y => L x (h - 1 - y)

theorem hasNb_turn {w h x y k : ℕ} : HasNb w h x y k → HasNb w h x (h - 1 - y) (turn k) ∧ nbx x (turn k) = nbx x k ∧
    nby (h - 1 - y) (turn k) = h - 1 - nby y k ∧ nby y k < h := by
  unfold HasNb turn nbx nby
  rintro ⟨h1, h2, ⟨rfl, h3⟩ | ⟨rfl, h3⟩ | ⟨rfl, h3⟩ | ⟨rfl, h3⟩⟩ <;> refine ⟨⟨h1, ?_, ?_⟩, ?_, ?_, ?_⟩ <;> (try simp) <;> (try omega)

theorem turn_turn (k : ℕ) : turn (turn k) = k := by
  unfold turn
  split_ifs <;> omega

theorem orderOK_turn {k d d' : ℕ} : OrderOK (turn k) d d' ↔ OrderOK k d d' := by
  have h0 : turn k = 0 ↔ k = 0 := by unfold turn; split_ifs <;> simp_all
  have h1 : turn k = 1 ↔ k = 1 := by unfold turn; split_ifs <;> simp_all
  unfold OrderOK
  rw [h0, h1]

section
variable {F : Type} [FloatOps F] {g g' : DisparityGraph F}

/-- The graph turned upside down. -/
structure Flipped (g g' : DisparityGraph F) : Prop where
  width : g'.right.width = g.right.width
  height : g'.right.height = g.right.height
  levels : g'.disparityLevels = g.disparityLevels
  node : ∀ x y d, g.IsNode x y d → g'.nodeQ x y d = g.nodeQ x (g.h - 1 - y) d
  edge : ∀ x y k d d', g.IsEdge x y k d d' → g'.edgeQ x y k d d' = g.edgeQ x (g.h - 1 - y) (turn k) d d'

theorem Flipped.isNode (h : Flipped g g') (x y d : ℕ) : g'.IsNode x y d ↔ g.IsNode x y d := by
  simp only [DisparityGraph.IsNode, DisparityGraph.w, DisparityGraph.h, DisparityGraph.levels, h.width, h.height, h.levels]

theorem Flipped.hasNb (h : Flipped g g') (x y k : ℕ) : HasNb g'.w g'.h x y k ↔ HasNb g.w g.h x y k := by
  simp only [DisparityGraph.w, DisparityGraph.h, h.width, h.height]

theorem Flipped.isEdge (h : Flipped g g') (x y k d d' : ℕ) : g'.IsEdge x y k d d' ↔ g.IsEdge x y k d d' := by
  simp only [DisparityGraph.IsEdge, h.isNode, h.hasNb]

omit [FloatOps F] in
theorem isNode_turn {x y d : ℕ} (h : g.IsNode x y d) : g.IsNode x (g.h - 1 - y) d :=
  ⟨h.1, by have := h.2.1; omega, h.2.2⟩

omit [FloatOps F] in
theorem isEdge_turn {x y k d d' : ℕ} (h : g.IsEdge x y k d d') : g.IsEdge x (g.h - 1 - y) (turn k) d d' := by
  obtain ⟨h1, h2, h3, h4⟩ := h
  obtain ⟨e1, e2, e3, -⟩ := hasNb_turn h1
  refine ⟨e1, isNode_turn h2, ?_, orderOK_turn.2 h4⟩
  rw [e2, e3]
  exact isNode_turn h3

theorem Flipped.symm (h : Flipped g g') : Flipped g' g where
  width := h.width.symm
  height := h.height.symm
  levels := h.levels.symm
  node x y d hd := by
    have hh : g'.h = g.h := by simp only [DisparityGraph.h, h.height]
    have hd := (h.isNode _ _ _).1 hd
    rw [hh, h.node _ _ _ (isNode_turn hd)]
    congr 1
    have := hd.2.1
    omega
  edge x y k d d' hd := by
    have hh : g'.h = g.h := by simp only [DisparityGraph.h, h.height]
    have hd := (h.isEdge _ _ _ _ _).1 hd
    rw [hh, h.edge _ _ _ _ _ (isEdge_turn hd), turn_turn]
    congr 1
    have := hd.2.1.2.1
    omega

/-- Feasible labelings are turned upside down. -/
theorem Flipped.feasible (h : Flipped g g') {t : F} {L : ℕ → ℕ → ℕ} (hL : g.FeasibleAt t L) : g'.FeasibleAt t (turned g.h L) := by
  have hw : g'.w = g.w := by simp only [DisparityGraph.w, h.width]
  have hh : g'.h = g.h := by simp only [DisparityGraph.h, h.height]
  intro x y hx hy
  rw [hw] at hx
  rw [hh] at hy
  have hyy : g.h - 1 - (g.h - 1 - y) = y := by omega
  obtain ⟨h1, h2, h3⟩ := hL x (g.h - 1 - y) hx (by omega)
  have n1 : g.IsNode x y (L x (g.h - 1 - y)) := by
    have := isNode_turn h1
    rwa [hyy] at this
  refine ⟨(h.isNode _ _ _).2 n1, fun d hd => ?_, fun k hk => ?_⟩
  · have hd := (h.isNode _ _ _).1 hd
    rw [h.node _ _ _ hd]
    show le (sub (g'.nodeQ x y (L x (g.h - 1 - y))) _) t = true
    rw [h.node _ _ _ n1]
    exact h2 d (isNode_turn hd)
  · have hk := (h.hasNb _ _ _).1 hk
    obtain ⟨e1, e2, e3, -⟩ := hasNb_turn hk
    obtain ⟨h4, h5⟩ := h3 (turn k) e1
    rw [e2, e3] at h4 h5
    have m1 : g.IsEdge x y k (L x (g.h - 1 - y)) (L (nbx x k) (g.h - 1 - nby y k)) := by
      have := isEdge_turn h4
      rwa [hyy, turn_turn] at this
    refine ⟨(h.isEdge _ _ _ _ _).2 m1, fun d d' hd => ?_⟩
    have hd := (h.isEdge _ _ _ _ _).1 hd
    rw [h.edge _ _ _ _ _ hd]
    show le (sub (g'.edgeQ x y k (L x (g.h - 1 - y)) (L (nbx x k) (g.h - 1 - nby y k))) _) t = true
    rw [h.edge _ _ _ _ _ m1]
    exact h5 d d' (isEdge_turn hd)

/-- The least threshold is the same, and each of the two maps turned upside down is feasible at it for other images. If there is one labeling
feasible at it only, then the map is turned upside down. -/
theorem C113_best_map_partial [LawfulFloat F] (h : Flipped g g') {t t' : F} {im im' : Image} (hb : BestMap g t im) (hb' : BestMap g' t' im') :
    t = t' ∧ g'.FeasibleAt t (turned g.h fun x y => im.at x y) ∧ g.FeasibleAt t (turned g.h fun x y => im'.at x y) ∧
    ((∀ L, g.FeasibleAt t L → ∀ x y, x < g.w → y < g.h → L x y = im.at x y) → im.UpsideDown im') := by
  have hh : g'.h = g.h := by simp only [DisparityGraph.h, h.height]
  have f1 := h.feasible hb.best.1
  have f2 := h.symm.feasible hb'.best.1
  rw [hh] at f2
  obtain rfl : t = t' := LawfulFloat.le_antisymm _ _ (hb.least _ _ f2) (hb'.least _ _ f1)
  refine ⟨rfl, f1, f2, fun hu => ⟨hb'.width.trans (h.width.trans hb.width.symm), hb'.height.trans (h.height.trans hb.height.symm), fun x y hx hy => ?_⟩⟩
  have hx' : x < g.w := by rw [hb.width] at hx; exact hx
  have e : im.height.toNat = g.h := by rw [hb.height]; rfl
  rw [e] at hy ⊢
  have := hu _ f2 x (g.h - 1 - y) hx' (by omega)
  rw [← this]
  show im'.at x y = im'.at x (g.h - 1 - (g.h - 1 - y))
  congr 1
  omega

/-- Graphs of images. -/
theorem flippedGraph [LawfulFloat F] {left right left' right' : Image} {levels : UInt64} {c s : F} (hl : left.UpsideDown left')
    (hr : right.UpsideDown right') (hin : AcceptedInput left right levels c s) :
    Flipped (freshGraph left right levels c s) (freshGraph left' right' levels c s) := by
  have hw : left.width = right.width := hin.2.2.2.2.1
  have hh : left.height = right.height := hin.2.2.2.2.2.1
  refine ⟨hr.width, hr.height, rfl, fun x y d hd => ?_, fun x y k d d' _ => ?_⟩
  · obtain ⟨h1, h2, -, h4⟩ := hd
    rw [fresh_nodeQ, fresh_nodeQ, hr.row x y h1 h2, hl.row (x + d) y (hw ▸ h4) (hh ▸ h2), hh]
    rfl
  · rw [fresh_edgeQ, fresh_edgeQ]

end

/-- Options and images of two executions: images of the second one are turned upside down, everything else is the same. -/
def World.UpsideDown {F F' : Type} [FloatOps F] [FloatOps F'] (world : World F) (world1 : World F') (o o1 : Options) : Prop :=
  ∃ (l r l1 r1 : Text) (left right left1 right1 : Image) (levels c s : UInt64),
    o.leftImage = some l ∧ o.rightImage = some r ∧ o1.leftImage = some l1 ∧ o1.rightImage = some r1 ∧
    readImage world l = .ok left ∧ readImage world r = .ok right ∧ readImage world1 l1 = .ok left1 ∧ readImage world1 r1 = .ok right1 ∧
    levelsOption left o.disparityLevels = .ok levels ∧ levelsOption left1 o1.disparityLevels = .ok levels ∧
    weightNumber o.cleanness = .ok c ∧ weightNumber o.smoothness = .ok s ∧
    weightNumber o1.cleanness = .ok c ∧ weightNumber o1.smoothness = .ok s ∧ left.UpsideDown left1 ∧ right.UpsideDown right1

/-- The texts are those of two maps that are equally good in the arithmetic `H`: each of them turned upside down is feasible for the images of
the other one at the least threshold, which is the same. If no other labeling is, then one map is the other one turned upside down. -/
def World.EquallyGood {F : Type} [FloatOps F] (H : Type) [FloatOps H] (world : World F) (o : Options) (text text1 : Text) : Prop :=
  ∃ (l r : Text) (left right : Image) (levels c s : UInt64) (im im1 : Image) (t : H),
    o.leftImage = some l ∧ o.rightImage = some r ∧ readImage world l = .ok left ∧ readImage world r = .ok right ∧
    levelsOption left o.disparityLevels = .ok levels ∧ weightNumber o.cleanness = .ok c ∧ weightNumber o.smoothness = .ok s ∧
    writePgm (some im) = .ok text ∧ writePgm (some im1) = .ok text1 ∧
    BestMap (freshGraph left right levels (ofNat c.toNat : H) (ofNat s.toNat)) t im ∧
    (freshGraph left right levels (ofNat c.toNat : H) (ofNat s.toNat)).FeasibleAt t (turned left.height.toNat fun x y => im1.at x y) ∧
    ((∀ L, (freshGraph left right levels (ofNat c.toNat : H) (ofNat s.toNat)).FeasibleAt t L →
      ∀ x y, x < left.width.toNat → y < left.height.toNat → L x y = im.at x y) → im.UpsideDown im1)

theorem World.Result.upsideDown {F F' H : Type} [FloatOps F] [FloatOps F'] [FloatOps H] [LawfulFloat H] {world : World F} {world1 : World F'}
    {o o1 : Options} {out out1 : Outcome} {path text path1 text1 : Text} (hr : world.UpsideDown world1 o o1)
    (h : world.Result H (.parsed o) out path text) (h1 : world1.Result H (.parsed o1) out1 path1 text1) : world.EquallyGood H o text text1 := by
  obtain ⟨l, r, l', r', left, right, left', right', levels, c, s, a1, a2, a3, a4, a5, a6, a7, a8, a9, a10, a11, a12, a13, a14, hl, hr⟩ := hr
  obtain ⟨-, -, _, _, _, _, _, _, _, _, im, e, -, b1, b2, b3, b4, b5, b6, b7, b8, b9, -, -, -, t, b10⟩ := h
  obtain ⟨-, -, _, _, _, _, _, _, _, _, im', e', -, d1, d2, d3, d4, d5, d6, d7, d8, d9, -, -, -, t', d10⟩ := h1
  cases e; cases e'
  cases a1.symm.trans b1; cases a2.symm.trans b2; cases a3.symm.trans d1; cases a4.symm.trans d2
  cases a5.symm.trans b3; cases a6.symm.trans b4; cases a7.symm.trans d3; cases a8.symm.trans d4
  cases a9.symm.trans b5; cases a10.symm.trans d5
  cases a11.symm.trans b6; cases a12.symm.trans b7; cases a13.symm.trans d6; cases a14.symm.trans d7
  have hw : left.width = right.width := b8.2.2.2.2.1
  have hh : left.height = right.height := b8.2.2.2.2.2.1
  obtain ⟨-, -, f2, f3⟩ := C113_best_map_partial (flippedGraph hl hr b8) b10 d10
  refine ⟨l, r, left, right, levels, c, s, im, im', t, b1, b2, b3, b4, b5, b6, b7, b9, d9, b10, ?_, ?_⟩
  · rw [hh]; exact f2
  · rw [hw, hh]; exact f3

section
variable {B B' : Nat} {jobs jobs' : UInt64} {world world' : World Double}

/-- **C113**, what holds. Full statement: if both images are turned upside down, then so is the map. It is false
(`C113_upside_down_refuted`): of labelings that are feasible at the least threshold the one with the best node in the first row is chosen.
What holds, whatever the weights, threads and schedules: the maps are equally good, and if no other labeling is feasible at the least threshold,
then the map is turned upside down. -/
theorem C113_upside_down_partial (hw : world.Reasonable jobs) (hw' : world'.Reasonable jobs') (hruns : world.Runs B jobs)
    (hruns' : world'.Runs B' jobs') (hcpu : world.CpuOnly) (hcpu' : world'.CpuOnly) {o o' : Options} (hr : world.UpsideDown world' o o')
    (out out' : Outcome) (h : program world (.parsed o) = .ok out) (h' : program world' (.parsed o') = .ok out') (path text path' text' : Text)
    (hwr : out.written = some (path, text)) (hwr' : out'.written = some (path', text')) : world.EquallyGood Format.binary64.Num o text text' :=
  World.Result.upsideDown hr (World.result_num hw hruns hcpu h hwr) (World.result_num hw' hruns' hcpu' h' hwr')

end

/-- **C113** is false: the map for images `5 8 0, 5 8 0` and `2 4 0, 3 4 0` consists of rows `2 1 0`, that for images turned upside down consists
of zeros. -/
theorem C113_upside_down_refuted : ∃ (world world' : World Double) (o : Options) (out out' : Outcome), world.Reasonable 1 ∧ world.Runs 64 1 ∧
    world.CpuOnly ∧ world'.Reasonable 1 ∧ world'.Runs 64 1 ∧ world'.CpuOnly ∧ world.UpsideDown world' o o ∧
    program world (.parsed o) = .ok out ∧ program world' (.parsed o) = .ok out' ∧
    out.written = some (bytes "o", bytes "P2\n3 2\n3\n2 1 0\n2 1 0\n") ∧ out'.written = some (bytes "o", bytes "P2\n3 2\n3\n0 0 0\n0 0 0\n") := by
  refine ⟨imagesWorld "P2 3 2 9 5 8 0 5 8 0" "P2 3 2 9 2 4 0 3 4 0" (fun _ => solveCsp 1) none,
    imagesWorld "P2 3 2 9 5 8 0 5 8 0" "P2 3 2 9 3 4 0 2 4 0" (fun _ => solveCsp 1) none, imagesOptions "3" "1" "4" none,
    { exit := 0, written := some (bytes "o", bytes "P2\n3 2\n3\n2 1 0\n2 1 0\n") },
    { exit := 0, written := some (bytes "o", bytes "P2\n3 2\n3\n0 0 0\n0 0 0\n") },
    imagesWorld_reasonable _ _ _ _ (.inl rfl), .inr rfl, ⟨rfl, rfl⟩, imagesWorld_reasonable _ _ _ _ (.inl rfl), .inr rfl, ⟨rfl, rfl⟩, ?_,
    by decide +kernel, by decide +kernel, rfl, rfl⟩
  have hup : ∀ a b c d e f : UInt64, (Image.mk 3 2 9 #[a, b, c, d, e, f]).UpsideDown ⟨3, 2, 9, #[d, e, f, a, b, c]⟩ := by
    refine fun a b c d e f => ⟨rfl, rfl, fun x y hx hy => ?_⟩
    have hx : x < 3 := hx
    have hy : y < 2 := hy
    interval_cases x <;> interval_cases y <;> rfl
  exact ⟨bytes "l", bytes "r", bytes "l", bytes "r", ⟨3, 2, 9, #[5, 8, 0, 5, 8, 0]⟩, ⟨3, 2, 9, #[2, 4, 0, 3, 4, 0]⟩,
    ⟨3, 2, 9, #[5, 8, 0, 5, 8, 0]⟩, ⟨3, 2, 9, #[3, 4, 0, 2, 4, 0]⟩, 3, 1, 4, rfl, rfl, rfl, rfl, by decide +kernel, by decide +kernel,
    by decide +kernel, by decide +kernel, by decide +kernel, by decide +kernel, by decide +kernel, by decide +kernel, by decide +kernel,
    by decide +kernel, hup 5 8 0 5 8 0, hup 2 4 0 3 4 0⟩

end SP
