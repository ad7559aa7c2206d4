import Verif.Props.Images
import Verif.Props.NearOptimal
import Verif.Props.DoubleRefuted
/-!
# C105: only the ratio of weights matters

If all penalties are multiplied by the same positive number, the best map is the same. So the map depends on the ratio of weights only, as long
as penalties are exact (C92, C93). With larger weights it is false.
-/
namespace SP
open FloatOps ConstraintGraph Gpu
set_option maxRecDepth 1000000

/-! ## The best map -/

section
variable {g g' : DisparityGraph ℚ} {k : ℚ}

/-- Penalties of `g'` are those of `g` multiplied by `k`. -/
structure Multiplied (k : ℚ) (g g' : DisparityGraph ℚ) : Prop where
  positive : 0 < k
  width : g'.right.width = g.right.width
  height : g'.right.height = g.right.height
  levels : g'.disparityLevels = g.disparityLevels
  node : ∀ x y d, g.IsNode x y d → g'.nodeQ x y d = k * g.nodeQ x y d
  edge : ∀ x y j d d', g.IsEdge x y j d d' → g'.edgeQ x y j d d' = k * g.edgeQ x y j d d'

theorem Multiplied.isNode (h : Multiplied k g g') (x y d : ℕ) : g'.IsNode x y d ↔ g.IsNode x y d := by
  simp only [DisparityGraph.IsNode, DisparityGraph.w, DisparityGraph.h, DisparityGraph.levels, h.width, h.height, h.levels]

theorem Multiplied.hasNb (h : Multiplied k g g') (x y j : ℕ) : HasNb g'.w g'.h x y j ↔ HasNb g.w g.h x y j := by
  simp only [DisparityGraph.w, DisparityGraph.h, h.width, h.height]

theorem Multiplied.isEdge (h : Multiplied k g g') (x y j d d' : ℕ) : g'.IsEdge x y j d d' ↔ g.IsEdge x y j d d' := by
  simp only [DisparityGraph.IsEdge, h.isNode, h.hasNb]

theorem scaled_le (hk : 0 < k) (a b t : ℚ) : le (sub (k * a) (k * b)) (k * t) = true ↔ le (sub a b) t = true := by
  show decide (k * a - k * b ≤ k * t) = true ↔ decide (a - b ≤ t) = true
  rw [decide_eq_true_iff, decide_eq_true_iff, ← mul_sub]
  exact mul_le_mul_iff_right₀ hk

theorem Multiplied.feasible (h : Multiplied k g g') (t : ℚ) (L : ℕ → ℕ → ℕ) : g'.FeasibleAt (k * t) L ↔ g.FeasibleAt t L := by
  have hw : g'.w = g.w := by simp only [DisparityGraph.w, h.width]
  have hh : g'.h = g.h := by simp only [DisparityGraph.h, h.height]
  unfold DisparityGraph.FeasibleAt
  simp only [h.isNode, h.isEdge]
  rw [hw, hh]
  refine forall_congr' fun x => forall_congr' fun y => forall_congr' fun _ => forall_congr' fun _ => and_congr_right fun hn => and_congr ?_ ?_
  · refine forall_congr' fun d => forall_congr' fun hd => ?_
    rw [h.node _ _ _ hn, h.node _ _ _ hd, scaled_le h.positive]
  · refine forall_congr' fun j => forall_congr' fun _ => and_congr_right fun he => ?_
    refine forall_congr' fun d => forall_congr' fun d' => forall_congr' fun hd => ?_
    rw [h.edge _ _ _ _ _ he, h.edge _ _ _ _ _ hd, scaled_le h.positive]

/-- The best map is the same; the threshold is multiplied. -/
theorem C105_best_map (h : Multiplied k g g') {t : ℚ} {im : Image} (hb : BestMap g t im) : BestMap g' (k * t) im where
  width := hb.width.trans h.width.symm
  height := hb.height.trans h.height.symm
  levels := hb.levels.trans h.levels.symm
  size := by
    rw [hb.size]
    simp only [DisparityGraph.w, DisparityGraph.h, h.width, h.height]
  best := by
    have hw : g'.w = g.w := by simp only [DisparityGraph.w, h.width]
    have hh : g'.h = g.h := by simp only [DisparityGraph.h, h.height]
    rw [hw, hh]
    refine ⟨(h.feasible t _).2 hb.best.1, fun L' hL' x y hx hy hsame => ?_⟩
    have hL := (h.feasible t L').1 hL'
    obtain ⟨h1, h2⟩ := hb.best.2 L' hL x y hx hy hsame
    have n1 := (hb.best.1 x y hx hy).1
    have n2 := (hL x y hx hy).1
    rw [h.node _ _ _ n1, h.node _ _ _ n2]
    refine ⟨?_, fun hlt => ?_⟩
    · exact decide_eq_true (mul_le_mul_of_nonneg_left (of_decide_eq_true h1) h.positive.le)
    · exact decide_eq_true (mul_lt_mul_of_pos_left (of_decide_eq_true (h2 hlt)) h.positive)
  least t' L hL := by
    have e : t' = k * (t' / k) := by field_simp [h.positive.ne']
    rw [e] at hL ⊢
    have := of_decide_eq_true (hb.least _ _ ((h.feasible _ _).1 hL))
    exact decide_eq_true (mul_le_mul_of_nonneg_left this h.positive.le)

end

/-! ## Images and weights -/

/-- Intensities are multiplied by `a`, and the weights `c'` and `s'` are in such a ratio that all penalties are multiplied by the same number. -/
structure SameRatio (a : ℕ) (left right left' right' : Image) (c s c' s' : ℕ) : Prop where
  positive : 0 < a
  width : right'.width = right.width
  height : right'.height = right.height
  left : ∀ x y, left'.at x y = a * left.at x y
  right : ∀ x y, right'.at x y = a * right.at x y
  ratio : c' * a ^ 2 * s = c * s'

theorem SameRatio.multiplied {a : ℕ} {left right left' right' : Image} {c s c' s' : ℕ} {levels : UInt64}
    (h : SameRatio a left right left' right' c s c' s') (h0 : c ≠ 0 ∨ s ≠ 0) (h0' : c' ≠ 0 ∨ s' ≠ 0) :
    ∃ k, Multiplied k (freshGraph left right levels (ofNat c : ℚ) (ofNat s)) (freshGraph left' right' levels (ofNat c' : ℚ) (ofNat s')) := by
  have ha : (0 : ℚ) < a := Nat.cast_pos.2 h.positive
  have hr : (c' : ℚ) * a ^ 2 * s = c * s' := by exact_mod_cast h.ratio
  obtain ⟨k, hk, kc, ks⟩ : ∃ k : ℚ, 0 < k ∧ (c' : ℚ) * a ^ 2 = k * c ∧ (s' : ℚ) = k * s := by
    rcases Nat.eq_zero_or_pos s with hs | hs
    · subst hs
      have hc : 0 < c := by omega
      have hs' : s' = 0 := by
        have := h.ratio
        simp only [Nat.mul_zero] at this
        rcases Nat.mul_eq_zero.1 this.symm with h | h
        · omega
        · exact h
      have hc' : 0 < c' := by omega
      refine ⟨(c' : ℚ) * a ^ 2 / c, ?_, ?_, ?_⟩
      · have : (0 : ℚ) < c := Nat.cast_pos.2 hc
        have : (0 : ℚ) < c' := Nat.cast_pos.2 hc'
        positivity
      · have : (c : ℚ) ≠ 0 := Nat.cast_ne_zero.2 (by omega)
        field_simp
      · rw [hs']; simp
    · have hs' : 0 < s' := by
        rcases Nat.eq_zero_or_pos s' with h1 | h1
        · exfalso
          have := h.ratio
          rw [h1, Nat.mul_zero] at this
          have ha2 : a ^ 2 ≠ 0 := pow_ne_zero _ (by have := h.positive; omega)
          rcases Nat.mul_eq_zero.1 this with h2 | h2
          · rcases Nat.mul_eq_zero.1 h2 with h3 | h3
            · omega
            · exact ha2 h3
          · omega
        · exact h1
      have q : (0 : ℚ) < s := Nat.cast_pos.2 hs
      have q' : (0 : ℚ) < s' := Nat.cast_pos.2 hs'
      refine ⟨s' / s, by positivity, ?_, ?_⟩
      · field_simp
        rw [hr]
        ring
      · field_simp
  refine ⟨k, hk, h.width, h.height, rfl, fun x y d _ => ?_, fun x y j d d' _ => ?_⟩
  · rw [fresh_nodeQ, fresh_nodeQ, h.right, h.left]
    show (c' : ℚ) * ((((a * right.at x y : ℕ) : ℚ) - ((a * left.at (x + d) y : ℕ) : ℚ)) * (((a * right.at x y : ℕ) : ℚ) - ((a * left.at (x + d) y : ℕ) : ℚ))) =
      k * ((c : ℚ) * (((right.at x y : ℚ) - (left.at (x + d) y : ℚ)) * ((right.at x y : ℚ) - (left.at (x + d) y : ℚ))))
    rw [← mul_assoc k, ← kc]
    push_cast
    ring
  · rw [fresh_edgeQ, fresh_edgeQ]
    show (s' : ℚ) * (((d : ℚ) - d') * ((d : ℚ) - d')) = k * ((s : ℚ) * (((d : ℚ) - d') * ((d : ℚ) - d')))
    rw [ks]
    ring

/-! ## The program -/

/-- What is known about the two runs: images, levels and weights. -/
def World.SameRatio {F : Type} [FloatOps F] (world world' : World F) (o o' : Options) : Prop :=
  ∃ (l r l' r' : Text) (left right left' right' : Image) (levels c s c' s' : UInt64) (a : ℕ),
    o.leftImage = some l ∧ o.rightImage = some r ∧ o'.leftImage = some l' ∧ o'.rightImage = some r' ∧
    readImage world l = .ok left ∧ readImage world r = .ok right ∧ readImage world' l' = .ok left' ∧ readImage world' r' = .ok right' ∧
    levelsOption left o.disparityLevels = .ok levels ∧ levelsOption left' o'.disparityLevels = .ok levels ∧
    weightNumber o.cleanness = .ok c ∧ weightNumber o.smoothness = .ok s ∧
    weightNumber o'.cleanness = .ok c' ∧ weightNumber o'.smoothness = .ok s' ∧
    SP.SameRatio a left right left' right' c.toNat s.toNat c'.toNat s'.toNat

theorem AcceptedInput.some_weight {left right : Image} {levels : UInt64} {c s : ℕ} (h : AcceptedInput left right levels (ofNat c : ℚ) (ofNat s)) :
    c ≠ 0 ∨ s ≠ 0 := by
  by_contra hn
  push_neg at hn
  obtain ⟨rfl, rfl⟩ := hn
  obtain ⟨-, -, -, -, -, -, -, -, -, h10⟩ := h
  have : ∀ a : ℚ, a = ofNat 0 → lt a (epsilon : ℚ) = true := fun a ha => decide_eq_true (show a < 1 / 2 ^ 52 by
    rw [ha]
    show ((0 : ℕ) : ℚ) < _
    norm_num)
  rw [this _ rfl] at h10
  simp at h10

/-- Files that are best maps in exact arithmetic are equal. -/
theorem World.Result.same_ratio {F : Type} [FloatOps F] {world world' : World F} {o o' : Options} {out out' : Outcome} {path text path' text' : Text}
    (hr : world.SameRatio world' o o') (h : world.Result ℚ (.parsed o) out path text) (h' : world'.Result ℚ (.parsed o') out' path' text') :
    text = text' := by
  obtain ⟨l, r, l', r', left, right, left', right', levels, c, s, c', s', a, a1, a2, a3, a4, a5, a6, a7, a8, a9, a10, a11, a12, a13, a14, hs⟩ := hr
  obtain ⟨-, -, _, _, _, _, _, _, _, _, im, e, -, b1, b2, b3, b4, b5, b6, b7, b8, b9, -, -, -, t, b10⟩ := h
  obtain ⟨-, -, _, _, _, _, _, _, _, _, im', e', -, d1, d2, d3, d4, d5, d6, d7, d8, d9, -, -, -, t', d10⟩ := h'
  cases e; cases e'
  cases a1.symm.trans b1; cases a2.symm.trans b2; cases a3.symm.trans d1; cases a4.symm.trans d2
  cases a5.symm.trans b3; cases a6.symm.trans b4; cases a7.symm.trans d3; cases a8.symm.trans d4
  cases a9.symm.trans b5; cases a10.symm.trans d5
  cases a11.symm.trans b6; cases a12.symm.trans b7; cases a13.symm.trans d6; cases a14.symm.trans d7
  obtain ⟨k, hk⟩ := hs.multiplied (levels := levels) b8.some_weight d8.some_weight
  obtain ⟨-, rfl⟩ := (C105_best_map hk b10).unique d10
  exact Except.ok.inj (b9.symm.trans d9)

section
variable {B B' : Nat} {jobs jobs' : UInt64} {world world' : World Double}

/-- **C105**, what holds. Full statement: whatever the weights, the program writes the same map for weights in the same ratio, and for
intensities that are `a` times greater if the ratio of weights is `a^2` times smaller. It is false for large weights, which are rounded
(`C105_ratio_refuted`). It holds if weights multiplied by squares of differences of intensities or levels are at most `2^53`: without OpenCL
and CUDA both runs, whatever the threads and schedules are, write the same text, if they write. -/
theorem C105_ratio_partial (hw : world.Reasonable jobs) (hw' : world'.Reasonable jobs') (hruns : world.Runs B jobs) (hruns' : world'.Runs B' jobs')
    (hcpu : world.CpuOnly) (hcpu' : world'.CpuOnly) {o o' : Options}
    (hin : ∀ l r, o.leftImage = some l → o.rightImage = some r → world.InRange 53 o l r)
    (hin' : ∀ l r, o'.leftImage = some l → o'.rightImage = some r → world'.InRange 53 o' l r)
    (hr : world.SameRatio world' o o') (out out' : Outcome) (h : program world (.parsed o) = .ok out) (h' : program world' (.parsed o') = .ok out')
    (path text path' text' : Text) (hwr : out.written = some (path, text)) (hwr' : out'.written = some (path', text')) : text = text' :=
  World.Result.same_ratio hr (C92_exact hw hruns hcpu _ (by rintro _ l r ⟨⟩ h1 h2; exact hin l r h1 h2) out h path text hwr)
    (C92_exact hw' hruns' hcpu' _ (by rintro _ l r ⟨⟩ h1 h2; exact hin' l r h1 h2) out' h' path' text' hwr')

/-- The same with devices that compute with `float`, if the products are at most `2^24`. -/
theorem C105_ratio_device_partial {allowed allowed' : (Nat → Nat) → Prop} (hw : world.Reasonable jobs) (hw' : world'.Reasonable jobs')
    (hruns : world.Runs B jobs) (hruns' : world'.Runs B' jobs')
    (hdev : world.Devices (Ieee.convert : Double → Single) allowed) (hdev' : world'.Devices (Ieee.convert : Double → Single) allowed') {o o' : Options}
    (hin : ∀ l r, o.leftImage = some l → o.rightImage = some r → world.InRange 24 o l r)
    (hin' : ∀ l r, o'.leftImage = some l → o'.rightImage = some r → world'.InRange 24 o' l r)
    (hr : world.SameRatio world' o o') (out out' : Outcome) (h : program world (.parsed o) = .ok out) (h' : program world' (.parsed o') = .ok out')
    (path text path' text' : Text) (hwr : out.written = some (path, text)) (hwr' : out'.written = some (path', text')) : text = text' :=
  World.Result.same_ratio hr (C93_float_device_partial hw hruns hdev _ (by rintro _ l r ⟨⟩ h1 h2; exact hin l r h1 h2) out h path text hwr)
    (C93_float_device_partial hw' hruns' hdev' _ (by rintro _ l r ⟨⟩ h1 h2; exact hin' l r h1 h2) out' h' path' text' hwr')

end

/-- **C105** is false for large weights: for images `0 1` and `1 1`, two levels and weights 9007199254740992 and 9007199254740993 the program
writes another map than for weights that are three times greater. -/
theorem C105_ratio_refuted : ∃ (world : World Double) (o o' : Options) (out out' : Outcome), world.Reasonable 1 ∧ world.Runs 64 1 ∧ world.CpuOnly ∧
    world.SameRatio world o o' ∧ program world (.parsed o) = .ok out ∧ program world (.parsed o') = .ok out' ∧
    out.written = some (bytes "o", bytes "P2\n2 1\n2\n1 0\n") ∧ out'.written = some (bytes "o", bytes "P2\n2 1\n2\n0 0\n") := by
  refine ⟨imagesWorld "P2 2 1 1 0 1" "P2 2 1 1 1 1" (fun _ => solveCsp 1) none,
    imagesOptions "2" "9007199254740992" "9007199254740993" none, imagesOptions "2" "27021597764222976" "27021597764222979" none,
    { exit := 0, written := some (bytes "o", bytes "P2\n2 1\n2\n1 0\n") }, { exit := 0, written := some (bytes "o", bytes "P2\n2 1\n2\n0 0\n") },
    imagesWorld_reasonable _ _ _ _ (.inl rfl), .inr rfl, ⟨rfl, rfl⟩, ?_, by decide +kernel, by decide +kernel, rfl, rfl⟩
  refine ⟨bytes "l", bytes "r", bytes "l", bytes "r", ⟨2, 1, 1, #[0, 1]⟩, ⟨2, 1, 1, #[1, 1]⟩, ⟨2, 1, 1, #[0, 1]⟩, ⟨2, 1, 1, #[1, 1]⟩, 2,
    9007199254740992, 9007199254740993, 27021597764222976, 27021597764222979, 1, rfl, rfl, rfl, rfl, by decide +kernel, by decide +kernel,
    by decide +kernel, by decide +kernel, by decide +kernel, by decide +kernel, by decide +kernel, by decide +kernel, by decide +kernel,
    by decide +kernel, by decide, rfl, rfl, fun x y => (Nat.one_mul _).symm, fun x y => (Nat.one_mul _).symm, by decide⟩

/-! ## Examples -/

-- images with intensities that are twice as great, with the cleanness that is four times smaller
example : ∃ out out', (imagesWorld "P2 3 2 9 1 2 3 0 1 2" "P2 3 2 9 2 3 3 1 2 2" (fun _ => solveCsp 1) none).SameRatio
      (imagesWorld "P2 3 2 9 2 4 6 0 2 4" "P2 3 2 9 4 6 6 2 4 4" (fun _ => solveCsp 1) none) (imagesOptions "2" "4" "3" none)
      (imagesOptions "2" "1" "3" none) ∧
    program (imagesWorld "P2 3 2 9 1 2 3 0 1 2" "P2 3 2 9 2 3 3 1 2 2" (fun _ => solveCsp 1) none) (.parsed (imagesOptions "2" "4" "3" none)) =
      .ok out ∧
    program (imagesWorld "P2 3 2 9 2 4 6 0 2 4" "P2 3 2 9 4 6 6 2 4 4" (fun _ => solveCsp 1) none) (.parsed (imagesOptions "2" "1" "3" none)) =
      .ok out' ∧ out.written.isSome ∧ out'.written.isSome := by
  have hat : ∀ (w h m m' : UInt64) (d d' : List UInt64), d' = d.map (2 * ·) → (∀ v ∈ d, v.toNat ≤ 9) → ∀ x y,
      (Image.mk w h m' d'.toArray).at x y = 2 * (Image.mk w h m d.toArray).at x y := by
    rintro w h m m' d _ rfl hv x y
    simp only [Image.at, Array.getD_eq_getD_getElem?, List.getElem?_toArray, List.getElem?_map]
    rcases hd : d[pidx w.toNat x y]? with _ | v
    · rfl
    · have := hv v (List.mem_of_getElem? hd)
      show (2 * v).toNat = 2 * v.toNat
      rw [UInt64.toNat_mul]
      exact Nat.mod_eq_of_lt (by show 2 * v.toNat < _; omega)
  refine ⟨{ exit := 0, written := some (bytes "o", bytes "P2\n3 2\n2\n1 1 0\n1 1 0\n") },
    { exit := 0, written := some (bytes "o", bytes "P2\n3 2\n2\n1 1 0\n1 1 0\n") }, ⟨bytes "l", bytes "r", bytes "l", bytes "r", ⟨3, 2, 9, #[1, 2, 3, 0, 1, 2]⟩, ⟨3, 2, 9, #[2, 3, 3, 1, 2, 2]⟩,
    ⟨3, 2, 9, #[2, 4, 6, 0, 2, 4]⟩, ⟨3, 2, 9, #[4, 6, 6, 2, 4, 4]⟩, 2, 4, 3, 1, 3, 2, rfl, rfl, rfl, rfl, by decide +kernel, by decide +kernel,
    by decide +kernel, by decide +kernel, by decide +kernel, by decide +kernel, by decide +kernel, by decide +kernel, by decide +kernel,
    by decide +kernel, by decide, rfl, rfl, hat 3 2 9 9 [1, 2, 3, 0, 1, 2] [2, 4, 6, 0, 2, 4] (by decide) (by decide),
    hat 3 2 9 9 [2, 3, 3, 1, 2, 2] [4, 6, 6, 2, 4, 4] (by decide) (by decide), by decide⟩, by decide +kernel, by decide +kernel, rfl, rfl⟩

end SP
