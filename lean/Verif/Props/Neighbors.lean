import Verif.Props.Levels
import Verif.Props.Zeros
/-!
# C119: differences between neighbors

The map of zeros is a labeling, too. So if no pixel of the right image differs from the pixel of the left image at the same place by more than
`m`, then the least threshold is at most `c m²`, where `c` is cleanness. Hence in each map neighbors differ by `e` such that `s e² ≤ c m²`, where
`s` is smoothness. And as the last column consists of zeros, with `s > c m²` there are zeros only.
-/
namespace SP
open FloatOps ConstraintGraph Gpu
set_option maxRecDepth 1000000

/-- No pixels at the same place of the images differ by more than `m`. -/
def DifferBy (left right : Image) (m : ℕ) : Prop :=
  ∀ x y, x < right.width.toNat → y < right.height.toNat → ((right.at x y : ℤ) - left.at x y).natAbs ≤ m

/-- With cleanness `c` and smoothness `s` the map exceeds the best possible in no pixel and between no neighbors by more than `b`. -/
structure Image.Within (im left right : Image) (c s : ℕ) (b : ℚ) : Prop where
  pixel : ∀ x y d, x + d < im.width.toNat → y < im.height.toNat → d < im.maxValue.toNat →
    c * ((right.at x y : ℚ) - left.at (x + im.at x y) y) ^ 2 ≤ c * ((right.at x y : ℚ) - left.at (x + d) y) ^ 2 + b
  row : ∀ x y, x + 1 < im.width.toNat → y < im.height.toNat → s * ((im.at x y : ℚ) - im.at (x + 1) y) ^ 2 ≤ b
  column : ∀ x y, x < im.width.toNat → y + 1 < im.height.toNat → s * ((im.at x y : ℚ) - im.at x (y + 1)) ^ 2 ≤ b

/-- All values are zeros. -/
def Image.AllZero (im : Image) : Prop := ∀ x y, x < im.width.toNat → y < im.height.toNat → im.at x y = 0

section
variable {left right im : Image} {levels : UInt64} {c s : ℕ}

/-- Zeros are feasible at `c m²`. -/
theorem zeros_at (hg : (freshGraph left right levels (ofNat c : ℚ) (ofNat s)).Fresh) {m : ℕ} (hm : DifferBy left right m) :
    (freshGraph left right levels (ofNat c : ℚ) (ofNat s)).FeasibleAt (c * (m : ℚ) ^ 2) fun _ _ => 0 := by
  have hle : ∀ {a b : ℚ}, le a b = true ↔ a ≤ b := decide_eq_true_iff
  have hI := DisparityGraph.Ideal.zeros hg.toValid (c := 0) (s := 0) (.inl rfl)
  have hb : (0 : ℚ) ≤ c * (m : ℚ) ^ 2 := by positivity
  refine fun x y hx hy => ⟨(hI.node x y hx hy).1, fun d _ => hle.2 ?_, fun k hk => ⟨(hI.edge x y k hk).1, fun d d' _ => hle.2 ?_⟩⟩
  · have h2 : (0 : ℚ) ≤ _ := hle.1 (nodeQ_nonneg hg x y d)
    have h1 : (freshGraph left right levels (ofNat c : ℚ) (ofNat s)).nodeQ x y 0 ≤ c * (m : ℚ) ^ 2 := by
      rw [fresh_nodeQ]
      show (c : ℚ) * (((right.at x y : ℕ) - (left.at (x + 0) y : ℕ) : ℚ) * ((right.at x y : ℕ) - (left.at (x + 0) y : ℕ))) ≤ _
      refine mul_le_mul_of_nonneg_left ?_ (Nat.cast_nonneg c)
      have := Nat.pow_le_pow_left (hm x y hx hy) 2
      have e : ((right.at x y : ℚ) - (left.at (x + 0) y : ℕ)) * ((right.at x y : ℚ) - (left.at (x + 0) y : ℕ)) =
          ((((right.at x y : ℤ) - left.at x y).natAbs ^ 2 : ℕ) : ℚ) := by
        push_cast
        rw [Nat.cast_natAbs, Int.cast_abs, sq_abs]
        push_cast
        rw [Nat.add_zero]
        ring
      rw [e]
      exact_mod_cast this
    change (freshGraph left right levels (ofNat c : ℚ) (ofNat s)).nodeQ x y 0 - _ ≤ _
    linarith
  · have h2 : (0 : ℚ) ≤ _ := hle.1 (edgeQ_nonneg hg x y k d d')
    have h3 : (freshGraph left right levels (ofNat c : ℚ) (ofNat s)).edgeQ x y k 0 0 = 0 := edgeQ_eq hg x y k 0
    change (freshGraph left right levels (ofNat c : ℚ) (ofNat s)).edgeQ x y k 0 0 - _ ≤ _
    rw [h3]
    linarith

/-- What feasibility means for the images. -/
theorem FeasibleAt.within {b : ℚ} (hg : (freshGraph left right levels (ofNat c : ℚ) (ofNat s)).Fresh) (hw : im.width = right.width)
    (hh : im.height = right.height) (hl : im.maxValue = levels)
    (h : (freshGraph left right levels (ofNat c : ℚ) (ofNat s)).FeasibleAt b fun x y => im.at x y) : im.Within left right c s b := by
  have hle : ∀ {a b : ℚ}, le a b = true ↔ a ≤ b := decide_eq_true_iff
  have hI := DisparityGraph.Ideal.zeros hg.toValid (c := 0) (s := 0) (.inl rfl)
  have key : ∀ x y k, HasNb right.width.toNat right.height.toNat x y k →
      s * ((im.at x y : ℚ) - im.at (nbx x k) (nby y k)) ^ 2 ≤ b := by
    intro x y k hk
    have := hle.1 (((h x y hk.1 hk.2.1).2.2 k hk).2 0 0 (hI.edge x y k hk).1)
    rw [edgeQ_eq hg, LawfulFloat.sub_zero, fresh_edgeQ] at this
    rw [sq]
    exact this
  refine ⟨fun x y d hx hy hd => ?_, fun x y hx hy => ?_, fun x y hx hy => ?_⟩
  · rw [hw] at hx
    rw [hh] at hy
    rw [hl] at hd
    have := hle.1 ((h x y (by show x < right.width.toNat; omega) hy).2.1 d ⟨by show x < right.width.toNat; omega, hy, hd, hx⟩)
    rw [fresh_nodeQ, fresh_nodeQ] at this
    change (c : ℚ) * (((right.at x y : ℕ) - (left.at (x + im.at x y) y : ℕ) : ℚ) * ((right.at x y : ℕ) - (left.at (x + im.at x y) y : ℕ))) -
      (c : ℚ) * (((right.at x y : ℕ) - (left.at (x + d) y : ℕ) : ℚ) * ((right.at x y : ℕ) - (left.at (x + d) y : ℕ))) ≤ b at this
    rw [sq, sq]
    linarith
  · rw [hw] at hx
    rw [hh] at hy
    exact key x y 0 ⟨by omega, hy, .inl ⟨rfl, hx⟩⟩
  · rw [hw] at hx
    rw [hh] at hy
    exact key x y 2 ⟨hx, by omega, .inr (.inr (.inl ⟨rfl, hy⟩))⟩

/-- With strong smoothness there are zeros only. -/
theorem Image.Within.zeros {b : ℚ} (h : im.Within left right c s b) (hb : b < s) (hlast : ∀ y, y < im.height.toNat → im.at (im.width.toNat - 1) y = 0) :
    im.AllZero := by
  have step : ∀ x y, x + 1 < im.width.toNat → y < im.height.toNat → im.at x y = im.at (x + 1) y := by
    intro x y hx hy
    by_contra hne
    have h1 := (h.row x y hx hy).trans_lt hb
    have h2 : (1 : ℚ) ≤ ((im.at x y : ℚ) - im.at (x + 1) y) ^ 2 := by
      have h3 : (im.at x y : ℤ) - im.at (x + 1) y ≠ 0 := by omega
      have : (1 : ℤ) ≤ ((im.at x y : ℤ) - im.at (x + 1) y) ^ 2 := by
        have := sq_pos_of_ne_zero h3
        omega
      exact_mod_cast this
    have h4 : (0 : ℚ) ≤ s := Nat.cast_nonneg s
    nlinarith
  have key : ∀ n y, n < im.width.toNat → y < im.height.toNat → im.at (im.width.toNat - 1 - n) y = 0 := by
    intro n
    induction n with
    | zero => exact fun y _ hy => hlast y hy
    | succ n ih =>
      intro y hn hy
      have := step (im.width.toNat - 1 - (n + 1)) y (by omega) hy
      rw [this]
      have e : im.width.toNat - 1 - (n + 1) + 1 = im.width.toNat - 1 - n := by omega
      rw [e]
      exact ih y (by omega) hy
  intro x y hx hy
  have := key (im.width.toNat - 1 - x) y (by omega) hy
  rwa [show im.width.toNat - 1 - (im.width.toNat - 1 - x) = x by omega] at this

end

/-- The text is that of a map which is as good as the map of zeros (but for the part `part` of the largest penalty). -/
def World.WithinZeros {F : Type} [FloatOps F] (part : ℚ) (world : World F) (cl : CommandLine) (text : Text) : Prop :=
  ∃ (o : Options) (l r : Text) (left right : Image) (levels c s : UInt64) (im : Image), cl = .parsed o ∧ o.leftImage = some l ∧ o.rightImage = some r ∧
    readImage world l = .ok left ∧ readImage world r = .ok right ∧ levelsOption left o.disparityLevels = .ok levels ∧
    weightNumber o.cleanness = .ok c ∧ weightNumber o.smoothness = .ok s ∧ writePgm (some im) = .ok text ∧
    im.width = right.width ∧ im.height = right.height ∧ im.maxValue = levels ∧ ∀ m : ℕ, DifferBy left right m →
      im.Within left right c.toNat s.toNat (c.toNat * (m : ℚ) ^ 2 + part * largestPenalty left.maxValue.toNat levels c.toNat s.toNat) ∧
      (c.toNat * (m : ℚ) ^ 2 + part * largestPenalty left.maxValue.toNat levels c.toNat s.toNat < s.toNat → im.AllZero)

section
variable {F : Type} [FloatOps F] {world : World F} {jobs : UInt64} {cl : CommandLine} {out : Outcome} {path text : Text}

theorem World.NearResult.within {part : ℚ} (hw : world.Reasonable jobs) (h : world.NearResult part cl out path text) :
    world.WithinZeros part cl text := by
  obtain ⟨-, -, o, l, r, left, right, levels, c, s, im, q1, -, q3, q4, q5, q6, q7, q8, q9, ha, q11, -, q12, q13, q14, q15⟩ := h
  refine ⟨o, l, r, left, right, levels, c, s, im, q1, q3, q4, q5, q6, q7, q8, q9, q11, q12, q13, q14, fun m hm => ?_⟩
  obtain ⟨tl, -, pl, sl⟩ := readImage_ok q5
  obtain ⟨tr, -, pr, sr⟩ := readImage_ok q6
  have hl := pgmOf_sized pl sl hw.memory
  have hr := pgmOf_sized pr sr hw.memory
  have hf := freshGraph_fresh hl hr ha (accepted_fits ha hl (sl.trans_lt hw.memory))
  have hfe := q15 _ _ (zeros_at hf hm)
  have hwi := FeasibleAt.within hf q12 q13 q14 hfe
  refine ⟨hwi, fun hb => hwi.zeros hb fun y hy => ?_⟩
  rw [q12]
  rw [q13] at hy
  exact (FeasibleAt.limits hfe).2.1 y ha.2.1.1 hy

theorem World.Result.within (hw : world.Reasonable jobs) (h : world.Result ℚ cl out path text) : world.WithinZeros 0 cl text := by
  obtain ⟨e1, e2, o, l, r, left, right, levels, c, s, im, q1, q2, q3, q4, q5, q6, q7, q8, q9, ha, q11, q12, -, -, t, hb⟩ := h
  refine World.NearResult.within hw (out := out) (path := path) ⟨e1, e2, o, l, r, left, right, levels, c, s, im, q1, q2, q3, q4, q5, q6, q7, q8, q9, ha, q11, q12,
    hb.width, hb.height, hb.levels, fun t' L hL => ?_⟩
  have hle := hb.least t' L hL
  intro x y hx hy
  obtain ⟨h1, h2, h3⟩ := hb.best.1 x y hx hy
  rw [zero_mul, add_zero]
  exact ⟨h1, fun d hd => LawfulFloat.le_trans _ _ _ (h2 d hd) hle, fun k hk => ⟨(h3 k hk).1, fun d d' hd =>
    LawfulFloat.le_trans _ _ _ ((h3 k hk).2 d d' hd) hle⟩⟩

end

section
variable {B : Nat} {jobs : UInt64} {world : World Double} {allowed : (Nat → Nat) → Prop}

/-- **C119**. Each map written by the program is as good as the map of zeros, but for errors of rounding: `2^-47` of the largest penalty with `double`,
whatever the images, weights, threads and schedules. So neighbors do not differ much, and with strong smoothness there are zeros only. -/
theorem C119_neighbors (hw : world.Reasonable jobs) (hruns : world.Runs B jobs) (hcpu : world.CpuOnly) (cl : CommandLine) (out : Outcome)
    (h : program world cl = .ok out) (path text : Text) (hwr : out.written = some (path, text)) : world.WithinZeros (1 / 2 ^ 47) cl text :=
  (C98_near_optimal hw hruns hcpu cl out h path text hwr).within hw

/-- With `float` on devices: `2^-19` of the largest penalty. -/
theorem C119_neighbors_device (hw : world.Reasonable jobs) (hruns : world.Runs B jobs)
    (hdev : world.Devices (Ieee.convert : Double → Single) allowed) (cl : CommandLine) (out : Outcome)
    (h : program world cl = .ok out) (path text : Text) (hwr : out.written = some (path, text)) : world.WithinZeros (1 / 2 ^ 19) cl text :=
  (C99_near_optimal_float hw hruns hdev cl out h path text hwr).within hw

/-- Without errors, if weights multiplied by squares of differences of intensities or levels are at most `2^53`. -/
theorem C119_neighbors_exact (hw : world.Reasonable jobs) (hruns : world.Runs B jobs) (hcpu : world.CpuOnly) (cl : CommandLine)
    (hr : ∀ o l r, cl = .parsed o → o.leftImage = some l → o.rightImage = some r → world.InRange 53 o l r) (out : Outcome)
    (h : program world cl = .ok out) (path text : Text) (hwr : out.written = some (path, text)) : world.WithinZeros 0 cl text :=
  (C92_exact hw hruns hcpu cl hr out h path text hwr).within hw

/-- The same with `float` on devices, if they are at most `2^24`. -/
theorem C119_neighbors_device_exact (hw : world.Reasonable jobs) (hruns : world.Runs B jobs)
    (hdev : world.Devices (Ieee.convert : Double → Single) allowed) (cl : CommandLine)
    (hr : ∀ o l r, cl = .parsed o → o.leftImage = some l → o.rightImage = some r → world.InRange 24 o l r) (out : Outcome)
    (h : program world cl = .ok out) (path text : Text) (hwr : out.written = some (path, text)) : world.WithinZeros 0 cl text :=
  (C93_float_device_partial hw hruns hdev cl hr out h path text hwr).within hw

end

/-! ## Non-vacuity -/

/-- Intensities differ by at most 1. With smoothness 1 neighbors of the map differ by 1, so the bound is reached; with smoothness 2 there are zeros
only. -/
example : DifferBy ⟨2, 1, 9, #[1, 2]⟩ ⟨2, 1, 9, #[2, 2]⟩ 1 ∧ ((1 : ℕ) : ℚ) * ((1 : ℕ) : ℚ) ^ 2 + 0 * 2 < ((2 : ℕ) : ℚ) ∧
    program (imagesWorld "P2 2 1 9 1 2" "P2 2 1 9 2 2" (fun _ => solveCsp 1) none) (.parsed (imagesOptions "2" "1" "1" none)) =
      .ok { exit := 0, written := some (bytes "o", bytes "P2\n2 1\n2\n1 0\n") } ∧
    program (imagesWorld "P2 2 1 9 1 2" "P2 2 1 9 2 2" (fun _ => solveCsp 1) none) (.parsed (imagesOptions "2" "1" "2" none)) =
      .ok { exit := 0, written := some (bytes "o", bytes "P2\n2 1\n2\n0 0\n") } := by
  refine ⟨fun x y hx hy => ?_, by norm_num, by decide +kernel, by decide +kernel⟩
  obtain rfl : y = 0 := Nat.lt_one_iff.1 hy
  have h : ∀ x : Fin 2, (((Image.mk 2 1 9 #[2, 2]).at x 0 : ℤ) - (Image.mk 2 1 9 #[1, 2]).at x 0).natAbs ≤ 1 := by decide +kernel
  exact h ⟨x, hx⟩

/-- Strong smoothness may also be the reason why no map is written at all: the map of zeros is the only labeling here, but it is not found. -/
theorem C119_not_found : program (imagesWorld "P2 3 1 9 1 2 9" "P2 3 1 9 2 8 8" (fun _ => solveCsp 1) none) (.parsed (imagesOptions "3" "1" "37" none)) =
    .ok { exit := 0, err := [.logicError "Cannot find labeling. This should not ever happen. Refer to the developers."] } := by decide +kernel

end SP
