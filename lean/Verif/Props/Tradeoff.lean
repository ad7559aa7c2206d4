import Verif.Props.Neighbors
/-!
# C123: the map and other labelings

How well a labeling fits the images, and how rough it is, are two different things. Weights tell what matters more, but whatever they are, no labeling
is better than a written map in both respects; maps written with other weights are not, either.
-/
namespace SP
open FloatOps ConstraintGraph Gpu
set_option maxRecDepth 1000000
set_option linter.unusedSectionVars false

/-! ## Specification -/

/-- `L` could be a map: each pixel has a match inside of the left image, and matches do not go backwards along rows. -/
structure Labels (right : Image) (levels : ℕ) (L : ℕ → ℕ → ℕ) : Prop where
  node : ∀ x y, x < right.width.toNat → y < right.height.toNat → L x y < levels ∧ x + L x y < right.width.toNat
  order : ∀ x y, x + 1 < right.width.toNat → y < right.height.toNat → L x y ≤ L (x + 1) y + 1

/-- In no pixel is the square of the difference of intensities greater than with another disparity by more than `a`. -/
def Misfit (left right : Image) (levels : ℕ) (L : ℕ → ℕ → ℕ) (a : ℚ) : Prop :=
  ∀ x y d, x + d < right.width.toNat → y < right.height.toNat → d < levels →
    ((right.at x y : ℚ) - left.at (x + L x y) y) ^ 2 ≤ ((right.at x y : ℚ) - left.at (x + d) y) ^ 2 + a

/-- Squares of differences between neighbors are at most `b`. -/
def Rough (right : Image) (L : ℕ → ℕ → ℕ) (b : ℚ) : Prop :=
  (∀ x y, x + 1 < right.width.toNat → y < right.height.toNat → ((L x y : ℚ) - L (x + 1) y) ^ 2 ≤ b) ∧
  ∀ x y, x < right.width.toNat → y + 1 < right.height.toNat → ((L x y : ℚ) - L x (y + 1)) ^ 2 ≤ b

section
variable {left right im : Image} {levels : UInt64} {c s : ℕ} {L : ℕ → ℕ → ℕ} {a b t : ℚ}

theorem Rough.nb (h : Rough right L b) {x y k : ℕ} (hk : HasNb right.width.toNat right.height.toNat x y k) :
    ((L x y : ℚ) - L (nbx x k) (nby y k)) ^ 2 ≤ b := by
  obtain ⟨hx, hy, ⟨rfl, h1⟩ | ⟨rfl, h1⟩ | ⟨rfl, h1⟩ | ⟨rfl, h1⟩⟩ := hk
  · exact h.1 x y h1 hy
  · have := h.1 (x - 1) y (by omega) hy
    rw [show x - 1 + 1 = x by omega] at this
    rw [sub_sq_comm]
    exact this
  · exact h.2 x y hx h1
  · have := h.2 x (y - 1) hx (by omega)
    rw [show y - 1 + 1 = y by omega] at this
    rw [sub_sq_comm]
    exact this

/-- Labelings that fit and are smooth are feasible. -/
theorem Labels.feasible (hg : (freshGraph left right levels (ofNat c : ℚ) (ofNat s)).Fresh) (hL : Labels right levels.toNat L)
    (ha : Misfit left right levels.toNat L a) (hb : Rough right L b) (h1 : c * a ≤ t) (h2 : s * b ≤ t) :
    (freshGraph left right levels (ofNat c : ℚ) (ofNat s)).FeasibleAt t L := by
  have hle : ∀ {a b : ℚ}, le a b = true ↔ a ≤ b := decide_eq_true_iff
  have hnode : ∀ x y, x < right.width.toNat → y < right.height.toNat → (freshGraph left right levels (ofNat c : ℚ) (ofNat s)).IsNode x y (L x y) :=
    fun x y hx hy => ⟨hx, hy, (hL.node x y hx hy).1, (hL.node x y hx hy).2⟩
  intro x y hx hy
  refine ⟨hnode x y hx hy, fun d hd => hle.2 ?_, fun k hk => ⟨⟨hk, hnode x y hx hy, ?_, ?_⟩, fun d d' _ => hle.2 ?_⟩⟩
  · have := ha x y d hd.2.2.2 hy hd.2.2.1
    rw [fresh_nodeQ, fresh_nodeQ]
    change (c : ℚ) * (((right.at x y : ℕ) - (left.at (x + L x y) y : ℕ) : ℚ) * ((right.at x y : ℕ) - (left.at (x + L x y) y : ℕ))) -
      (c : ℚ) * (((right.at x y : ℕ) - (left.at (x + d) y : ℕ) : ℚ) * ((right.at x y : ℕ) - (left.at (x + d) y : ℕ))) ≤ t
    have hc : (0 : ℚ) ≤ c := Nat.cast_nonneg c
    nlinarith [mul_le_mul_of_nonneg_left this hc]
  · obtain ⟨-, -, ⟨rfl, h⟩ | ⟨rfl, h⟩ | ⟨rfl, h⟩ | ⟨rfl, h⟩⟩ := hk
    · exact hnode _ _ h hy
    · exact hnode _ _ (by show x - 1 < _; change x < right.width.toNat at hx; omega) hy
    · exact hnode _ _ hx h
    · exact hnode _ _ hx (by show y - 1 < _; change y < right.height.toNat at hy; omega)
  · obtain ⟨-, -, ⟨rfl, h⟩ | ⟨rfl, h⟩ | ⟨rfl, h⟩ | ⟨rfl, h⟩⟩ := hk
    · exact ⟨fun _ => hL.order x y h hy, fun h => by omega⟩
    · refine ⟨fun h => by omega, fun _ => ?_⟩
      have := hL.order (x - 1) y (by change x < right.width.toNat at hx; omega) hy
      rwa [show x - 1 + 1 = x by omega] at this
    · exact ⟨fun h => by omega, fun h => by omega⟩
    · exact ⟨fun h => by omega, fun h => by omega⟩
  · have h3 : (0 : ℚ) ≤ _ := hle.1 (edgeQ_nonneg hg x y k d d')
    have h4 := hb.nb hk
    have h5 : (freshGraph left right levels (ofNat c : ℚ) (ofNat s)).edgeQ x y k (L x y) (L (nbx x k) (nby y k)) =
        (s : ℚ) * ((L x y : ℚ) - L (nbx x k) (nby y k)) ^ 2 := by
      rw [fresh_edgeQ, sq]
      rfl
    change (freshGraph left right levels (ofNat c : ℚ) (ofNat s)).edgeQ x y k (L x y) (L (nbx x k) (nby y k)) - _ ≤ t
    rw [h5]
    have hs : (0 : ℚ) ≤ s := Nat.cast_nonneg s
    nlinarith [mul_le_mul_of_nonneg_left h4 hs]

/-- A map with the least threshold is worse than another labeling in one respect at most. -/
theorem Image.Within.one (hacc : 0 < c ∨ 0 < s) (hw : im.width = right.width) (hh : im.height = right.height) (hl : im.maxValue = levels)
    (hL : Labels right levels.toNat L) (ha : Misfit left right levels.toNat L a) (hb : Rough right L b) (h : im.Within left right c s (max (c * a) (s * b))) :
    Misfit left right levels.toNat (fun x y => im.at x y) a ∨ Rough right (fun x y => im.at x y) b := by
  have hmis : 0 < c → s * b ≤ c * a → Misfit left right levels.toNat (fun x y => im.at x y) a := by
    intro hc hle x y d hx hy hd
    have := h.pixel x y d (hw ▸ hx) (hh ▸ hy) (hl ▸ hd)
    rw [max_eq_left hle, ← mul_add] at this
    exact le_of_mul_le_mul_left this (by exact_mod_cast hc)
  have hrough : 0 < s → c * a ≤ s * b → Rough right (fun x y => im.at x y) b := by
    intro hs hle
    have hs' : (0 : ℚ) < s := by exact_mod_cast hs
    refine ⟨fun x y hx hy => ?_, fun x y hx hy => ?_⟩
    · have := h.row x y (hw ▸ hx) (hh ▸ hy)
      rw [max_eq_right hle] at this
      exact le_of_mul_le_mul_left this hs'
    · have := h.column x y (hw ▸ hx) (hh ▸ hy)
      rw [max_eq_right hle] at this
      exact le_of_mul_le_mul_left this hs'
  rcases Nat.eq_zero_or_pos c with rfl | hc
  · have hs : 0 < s := by omega
    rcases le_or_gt 0 b with h0 | h0
    · refine .inr (hrough hs ?_)
      rw [Nat.cast_zero, zero_mul]
      positivity
    · refine .inr ⟨fun x y hx hy => ?_, fun x y hx hy => ?_⟩
      · exact absurd ((sq_nonneg _).trans (hb.1 x y hx hy)) (not_le.2 h0)
      · exact absurd ((sq_nonneg _).trans (hb.2 x y hx hy)) (not_le.2 h0)
  · rcases Nat.eq_zero_or_pos s with rfl | hs
    · rcases le_or_gt 0 a with h0 | h0
      · refine .inl (hmis hc ?_)
        rw [Nat.cast_zero, zero_mul]
        positivity
      · refine .inl fun x y d hx hy hd => ?_
        have h1 := hL.node x y (by omega) hy
        have := ha x y (L x y) h1.2 hy h1.1
        linarith
    · rcases le_total ((s : ℚ) * b) (c * a) with h1 | h1
      · exact .inl (hmis hc h1)
      · exact .inr (hrough hs h1)

end

/-! ## The program -/

/-- The text is that of a map which is compared with all labelings: at the weights `c` and `s` it is as good as each of them (but for the part `part` of the
largest penalty), and if `part = 0` it is not worse in both respects. -/
def World.NotWorse {F : Type} [FloatOps F] (part : ℚ) (world : World F) (cl : CommandLine) (text : Text) : Prop :=
  ∃ (o : Options) (l r : Text) (left right : Image) (levels c s : UInt64) (im : Image), cl = .parsed o ∧ o.leftImage = some l ∧ o.rightImage = some r ∧
    readImage world l = .ok left ∧ readImage world r = .ok right ∧ levelsOption left o.disparityLevels = .ok levels ∧
    weightNumber o.cleanness = .ok c ∧ weightNumber o.smoothness = .ok s ∧ writePgm (some im) = .ok text ∧
    im.width = right.width ∧ im.height = right.height ∧ im.maxValue = levels ∧ levels.toNat ≤ right.width.toNat ∧
    Labels right levels.toNat (fun x y => im.at x y) ∧
    ∀ L a b, Labels right levels.toNat L → Misfit left right levels.toNat L a → Rough right L b →
      im.Within left right c.toNat s.toNat (max (c.toNat * a) (s.toNat * b) + part * largestPenalty left.maxValue.toNat levels c.toNat s.toNat) ∧
      (part = 0 → Misfit left right levels.toNat (fun x y => im.at x y) a ∨ Rough right (fun x y => im.at x y) b)

section
variable {F : Type} [FloatOps F] {world : World F} {jobs : UInt64} {cl : CommandLine} {out : Outcome} {path text : Text}

theorem World.NearResult.notWorse {part : ℚ} (hw : world.Reasonable jobs) (h : world.NearResult part cl out path text) :
    world.NotWorse part cl text := by
  obtain ⟨-, -, o, l, r, left, right, levels, c, s, im, q1, -, q3, q4, q5, q6, q7, q8, q9, ha, q11, -, q12, q13, q14, q15⟩ := h
  obtain ⟨tl, -, pl, sl⟩ := readImage_ok q5
  obtain ⟨tr, -, pr, sr⟩ := readImage_ok q6
  have hl := pgmOf_sized pl sl hw.memory
  have hr := pgmOf_sized pr sr hw.memory
  have hf := freshGraph_fresh hl hr ha (accepted_fits ha hl (sl.trans_lt hw.memory))
  have hacc : 0 < c.toNat ∨ 0 < s.toNat := by
    have key : ∀ n : UInt64, lt (ofNat n.toNat : ℚ) epsilon = false → 0 < n.toNat := by
      intro n hn
      rcases Nat.eq_zero_or_pos n.toNat with h0 | h0
      · rw [h0] at hn
        exact absurd hn (by decide +kernel)
      · exact h0
    exact ha.2.2.2.2.2.2.2.2.2.imp (key c) (key s)
  have hlab : Labels right levels.toNat (fun x y => im.at x y) := by
    obtain ⟨t, L, hL⟩ : ∃ t L, (freshGraph left right levels (ofNat c.toNat : ℚ) (ofNat s.toNat)).FeasibleAt t L :=
      ⟨_, _, zeros_at hf (m := left.maxValue.toNat + right.maxValue.toNat) fun x y _ _ => by
        have h1 := ha.1.at_le x y
        have h2 := ha.2.1.at_le x y
        omega⟩
    have := FeasibleAt.limits (q15 t L hL)
    refine ⟨fun x y hx hy => ?_, this.2.2⟩
    obtain ⟨h1, h2⟩ := this.1 x y hx hy
    exact ⟨h2, by change im.at x y < right.width.toNat - x at h1; omega⟩
  refine ⟨o, l, r, left, right, levels, c, s, im, q1, q3, q4, q5, q6, q7, q8, q9, q11, q12, q13, q14, ha.2.2.2.2.1 ▸ ha.2.2.2.1, hlab, fun L a b hL hm hb => ?_⟩
  have hwi := FeasibleAt.within hf q12 q13 q14 (q15 _ _ (hL.feasible hf hm hb (le_max_left _ _) (le_max_right _ _)))
  refine ⟨hwi, ?_⟩
  rintro rfl
  rw [zero_mul, add_zero] at hwi
  exact Image.Within.one hacc q12 q13 q14 hL hm hb hwi

/-- The best map is almost the best. -/
theorem World.Result.exactly (h : world.Result ℚ cl out path text) : world.NearResult 0 cl out path text := by
  obtain ⟨e1, e2, o, l, r, left, right, levels, c, s, im, q1, q2, q3, q4, q5, q6, q7, q8, q9, ha, q11, q12, -, -, t, hb⟩ := h
  refine ⟨e1, e2, o, l, r, left, right, levels, c, s, im, q1, q2, q3, q4, q5, q6, q7, q8, q9, ha, q11, q12,
    hb.width, hb.height, hb.levels, fun t' L hL => ?_⟩
  have hle := hb.least t' L hL
  intro x y hx hy
  obtain ⟨h1, h2, h3⟩ := hb.best.1 x y hx hy
  rw [zero_mul, add_zero]
  exact ⟨h1, fun d hd => LawfulFloat.le_trans _ _ _ (h2 d hd) hle, fun k hk => ⟨(h3 k hk).1, fun d d' hd =>
    LawfulFloat.le_trans _ _ _ ((h3 k hk).2 d d' hd) hle⟩⟩

theorem readImage_same {G : Type} [FloatOps G] {world' : World G} (hfile : world'.file = world.file) (hmem : world'.memory = world.memory) (path : Text) :
    readImage world' path = readImage world path := by
  unfold readImage
  rw [hfile, hmem]

/-- Of two written maps neither is better in both respects. -/
theorem World.NotWorse.two {G : Type} [FloatOps G] {world' : World G} {o o' : Options} {text' : Text} (h : world.NotWorse 0 (.parsed o) text) {part : ℚ}
    (h' : world'.NotWorse part (.parsed o') text') (hfile : world'.file = world.file) (hmem : world'.memory = world.memory)
    (hl : o'.leftImage = o.leftImage) (hr : o'.rightImage = o.rightImage) (hd : o'.disparityLevels = o.disparityLevels) :
    ∃ (l r : Text) (left right : Image) (levels : UInt64) (im im' : Image), o.leftImage = some l ∧ o.rightImage = some r ∧
      readImage world l = .ok left ∧ readImage world r = .ok right ∧ levelsOption left o.disparityLevels = .ok levels ∧
      writePgm (some im) = .ok text ∧ writePgm (some im') = .ok text' ∧
      ∀ a b, Misfit left right levels.toNat (fun x y => im'.at x y) a → Rough right (fun x y => im'.at x y) b →
        Misfit left right levels.toNat (fun x y => im.at x y) a ∨ Rough right (fun x y => im.at x y) b := by
  obtain ⟨_, l, r, left, right, levels, c, s, im, ⟨⟩, q3, q4, q5, q6, q7, q8, q9, q10, q11, q12, q13, -, q14, q15⟩ := h
  obtain ⟨_, l', r', left', right', levels', c', s', im', ⟨⟩, p3, p4, p5, p6, p7, p8, p9, p10, p11, p12, p13, -, p14, p15⟩ := h'
  obtain rfl : l' = l := by
    rw [hl, q3] at p3
    cases p3
    rfl
  obtain rfl : r' = r := by
    rw [hr, q4] at p4
    cases p4
    rfl
  obtain rfl : left' = left := by
    rw [readImage_same hfile hmem, q5] at p5
    cases p5
    rfl
  obtain rfl : right' = right := by
    rw [readImage_same hfile hmem, q6] at p6
    cases p6
    rfl
  obtain rfl : levels' = levels := by
    rw [hd, q7] at p7
    cases p7
    rfl
  exact ⟨l', r', left', right', levels', im, im', q3, q4, q5, q6, q7, q10, p10, fun a b ha hb => (q15 _ a b p14 ha hb).2 rfl⟩

end

section
variable {B : Nat} {jobs : UInt64} {world : World Double} {allowed : (Nat → Nat) → Prop}

/-- **C123**. With `double`, whatever the weights, threads and schedules: a written map is as good as any labeling, but for `2^-47` of the largest penalty. -/
theorem C123_not_worse (hw : world.Reasonable jobs) (hruns : world.Runs B jobs) (hcpu : world.CpuOnly) (cl : CommandLine) (out : Outcome)
    (h : program world cl = .ok out) (path text : Text) (hwr : out.written = some (path, text)) : world.NotWorse (1 / 2 ^ 47) cl text :=
  (C98_near_optimal hw hruns hcpu cl out h path text hwr).notWorse hw

/-- With `float` on devices: `2^-19` of the largest penalty. -/
theorem C123_not_worse_device (hw : world.Reasonable jobs) (hruns : world.Runs B jobs)
    (hdev : world.Devices (Ieee.convert : Double → Single) allowed) (cl : CommandLine) (out : Outcome)
    (h : program world cl = .ok out) (path text : Text) (hwr : out.written = some (path, text)) : world.NotWorse (1 / 2 ^ 19) cl text :=
  (C99_near_optimal_float hw hruns hdev cl out h path text hwr).notWorse hw

/-- Without errors, if weights multiplied by squares of differences of intensities or levels are at most `2^53`: then no labeling is better in both
respects. -/
theorem C123_not_worse_exact (hw : world.Reasonable jobs) (hruns : world.Runs B jobs) (hcpu : world.CpuOnly) (cl : CommandLine)
    (hr : ∀ o l r, cl = .parsed o → o.leftImage = some l → o.rightImage = some r → world.InRange 53 o l r) (out : Outcome)
    (h : program world cl = .ok out) (path text : Text) (hwr : out.written = some (path, text)) : world.NotWorse 0 cl text :=
  (C92_exact hw hruns hcpu cl hr out h path text hwr).exactly.notWorse hw

/-- The same with `float` on devices, if they are at most `2^24`. -/
theorem C123_not_worse_device_exact (hw : world.Reasonable jobs) (hruns : world.Runs B jobs)
    (hdev : world.Devices (Ieee.convert : Double → Single) allowed) (cl : CommandLine)
    (hr : ∀ o l r, cl = .parsed o → o.leftImage = some l → o.rightImage = some r → world.InRange 24 o l r) (out : Outcome)
    (h : program world cl = .ok out) (path text : Text) (hwr : out.written = some (path, text)) : world.NotWorse 0 cl text :=
  (C93_float_device_partial hw hruns hdev cl hr out h path text hwr).exactly.notWorse hw

/-- **C123**. Two maps are written for the same images and levels, with any weights, numbers of threads, schedules and devices. If weights of the first one are not
too large, then the second one is not better in both respects. -/
theorem C123_two_maps {B' : Nat} {jobs' : UInt64} {world' : World Double} (hw : world.Reasonable jobs) (hruns : world.Runs B jobs) (hcpu : world.CpuOnly)
    (hw' : world'.Reasonable jobs') (hruns' : world'.Runs B' jobs') (hdev' : world'.Devices (Ieee.convert : Double → Single) allowed)
    (hfile : world'.file = world.file) (hmem : world'.memory = world.memory) (o o' : Options)
    (hl : o'.leftImage = o.leftImage) (hr : o'.rightImage = o.rightImage) (hd : o'.disparityLevels = o.disparityLevels)
    (hrange : ∀ l r, o.leftImage = some l → o.rightImage = some r → world.InRange 53 o l r) (out out' : Outcome)
    (h : program world (.parsed o) = .ok out) (path text : Text) (hwr : out.written = some (path, text))
    (h' : program world' (.parsed o') = .ok out') (path' text' : Text) (hwr' : out'.written = some (path', text')) :
    ∃ (l r : Text) (left right : Image) (levels : UInt64) (im im' : Image), o.leftImage = some l ∧ o.rightImage = some r ∧
      readImage world l = .ok left ∧ readImage world r = .ok right ∧ levelsOption left o.disparityLevels = .ok levels ∧
      writePgm (some im) = .ok text ∧ writePgm (some im') = .ok text' ∧
      ∀ a b, Misfit left right levels.toNat (fun x y => im'.at x y) a → Rough right (fun x y => im'.at x y) b →
        Misfit left right levels.toNat (fun x y => im.at x y) a ∨ Rough right (fun x y => im.at x y) b :=
  (C123_not_worse_exact hw hruns hcpu _ (fun _ l r e hl hr => by cases e; exact hrange l r hl hr) out h path text hwr).two
    (C123_not_worse_device hw' hruns' hdev' _ out' h' path' text' hwr') hfile hmem hl hr hd

end

/-! ## Non-vacuity -/

/-- Maps of `2 × 1` images written with different weights: the first one fits better, the second one is smoother. -/
example : program (imagesWorld "P2 2 1 9 1 2" "P2 2 1 9 2 2" (fun _ => solveCsp 1) none) (.parsed (imagesOptions "2" "1" "1" none)) =
      .ok { exit := 0, written := some (bytes "o", bytes "P2\n2 1\n2\n1 0\n") } ∧
    program (imagesWorld "P2 2 1 9 1 2" "P2 2 1 9 2 2" (fun _ => solveCsp 1) none) (.parsed (imagesOptions "2" "1" "2" none)) =
      .ok { exit := 0, written := some (bytes "o", bytes "P2\n2 1\n2\n0 0\n") } ∧
    Misfit ⟨2, 1, 9, #[1, 2]⟩ ⟨2, 1, 9, #[2, 2]⟩ 2 (fun x _ => 1 - x) 0 ∧ Rough ⟨2, 1, 9, #[2, 2]⟩ (fun _ _ => 0) 0 ∧
    ¬ Misfit ⟨2, 1, 9, #[1, 2]⟩ ⟨2, 1, 9, #[2, 2]⟩ 2 (fun _ _ => 0) 0 ∧ ¬ Rough ⟨2, 1, 9, #[2, 2]⟩ (fun x _ => 1 - x) 0 ∧
    Labels ⟨2, 1, 9, #[2, 2]⟩ 2 (fun x _ => 1 - x) ∧ Labels ⟨2, 1, 9, #[2, 2]⟩ 2 (fun _ _ => 0) := by
  refine ⟨by decide +kernel, by decide +kernel, fun x y d hx hy hd => ?_, ⟨fun x y _ _ => by norm_num, fun x y _ _ => by norm_num⟩, fun h => ?_, fun h => ?_,
    ⟨fun x y hx hy => ?_, fun x y hx hy => ?_⟩, ⟨fun x y hx hy => ?_, fun x y hx hy => ?_⟩⟩
  · obtain rfl : y = 0 := Nat.lt_one_iff.1 hy
    change x + d < 2 at hx
    have h1 : ∀ x : Fin 2, (Image.mk 2 1 9 #[2, 2]).at x 0 = 2 ∧ (Image.mk 2 1 9 #[1, 2]).at (x + (1 - x)) 0 = 2 := by decide +kernel
    obtain ⟨h1, h2⟩ := h1 ⟨x, by omega⟩
    simp only at h1 h2
    rw [h1, h2]
    norm_num
    positivity
  · have h1 := h 0 0 1 (by decide) (by decide) (by decide)
    have h2 : (Image.mk 2 1 9 #[2, 2]).at 0 0 = 2 ∧ (Image.mk 2 1 9 #[1, 2]).at (0 + 0) 0 = 1 ∧ (Image.mk 2 1 9 #[1, 2]).at (0 + 1) 0 = 2 := by decide +kernel
    rw [h2.1, h2.2.1, h2.2.2] at h1
    norm_num at h1
  · have := h.1 0 0 (by decide) (by decide)
    norm_num at this
  · change x < 2 at hx
    show 1 - x < 2 ∧ x + (1 - x) < 2
    omega
  · show 1 - x ≤ 1 - (x + 1) + 1
    omega
  · exact ⟨by norm_num, hx⟩
  · exact Nat.zero_le _

end SP
