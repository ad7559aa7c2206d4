import Verif.Props.Shift
/-!
# C125: clear labelings

If in each pixel every disparity but that of a labeling is worse by more than smoothness times the square of any difference between neighbors of the labeling, then
the map is this labeling.
-/
namespace SP
open FloatOps ConstraintGraph Gpu
set_option maxRecDepth 1000000
set_option linter.unusedSectionVars false

/-- In each pixel other disparities are worse than that of `L` by more than `b`. -/
def Clear (left right : Image) (levels c : ℕ) (L : ℕ → ℕ → ℕ) (b : ℚ) : Prop :=
  ∀ x y d, x + d < right.width.toNat → y < right.height.toNat → d < levels → d ≠ L x y →
    c * ((right.at x y : ℚ) - left.at (x + L x y) y) ^ 2 + b < c * ((right.at x y : ℚ) - left.at (x + d) y) ^ 2

section
variable {left right im : Image} {levels : UInt64} {c s : ℕ} {L : ℕ → ℕ → ℕ} {b : ℚ}

/-- Its disparities fit best. -/
theorem Clear.misfit (h : Clear left right levels.toNat c L b) (h0 : 0 ≤ b) : Misfit left right levels.toNat L 0 := by
  intro x y d hx hy hd
  rw [add_zero]
  by_cases he : d = L x y
  · rw [he]
  · have := h x y d hx hy hd he
    by_contra hn
    have h1 := mul_le_mul_of_nonneg_left (not_le.1 hn).le (Nat.cast_nonneg (α := ℚ) c)
    linarith

theorem Clear.map (h : Clear left right levels.toNat c L b) (hL : Labels right levels.toNat L) (hw : im.width = right.width) (hh : im.height = right.height)
    (hl : im.maxValue = levels) (him : Labels right levels.toNat fun x y => im.at x y) (hwi : im.Within left right c s b) :
    ∀ x y, x < right.width.toNat → y < right.height.toNat → im.at x y = L x y := by
  intro x y hx hy
  by_contra hne
  obtain ⟨h1, h2⟩ := him.node x y hx hy
  obtain ⟨h3, h4⟩ := hL.node x y hx hy
  have h5 := h x y _ h2 hy h1 hne
  have h6 := hwi.pixel x y (L x y) (hw ▸ h4) (hh ▸ hy) (hl ▸ h3)
  exact absurd h5 (not_lt.2 h6)

end

/-! ## The program -/

/-- If a labeling is clear (also but for the part `part` of the largest penalty), then the text is that of its map. -/
def World.ClearFound {F : Type} [FloatOps F] (part : ℚ) (world : World F) (cl : CommandLine) (text : Text) : Prop :=
  ∃ (o : Options) (l r : Text) (left right : Image) (levels c s : UInt64) (im : Image), cl = .parsed o ∧ o.leftImage = some l ∧ o.rightImage = some r ∧
    readImage world l = .ok left ∧ readImage world r = .ok right ∧ levelsOption left o.disparityLevels = .ok levels ∧
    weightNumber o.cleanness = .ok c ∧ weightNumber o.smoothness = .ok s ∧ writePgm (some im) = .ok text ∧
    im.width = right.width ∧ im.height = right.height ∧ im.maxValue = levels ∧
    ∀ L b, 0 ≤ b → Labels right levels.toNat L → Rough right L b →
      Clear left right levels.toNat c.toNat L (s.toNat * b + part * largestPenalty left.maxValue.toNat levels c.toNat s.toNat) →
      ∀ x y, x < right.width.toNat → y < right.height.toNat → im.at x y = L x y

section
variable {F : Type} [FloatOps F] {world : World F} {cl : CommandLine} {text : Text}

theorem World.NotWorse.clear {part : ℚ} (h0 : 0 ≤ part) (h : world.NotWorse part cl text) : world.ClearFound part cl text := by
  obtain ⟨o, l, r, left, right, levels, c, s, im, q1, q2, q3, q4, q5, q6, q7, q8, q9, q10, q11, q12, hlw, hL, h⟩ := h
  refine ⟨o, l, r, left, right, levels, c, s, im, q1, q2, q3, q4, q5, q6, q7, q8, q9, q10, q11, q12, fun L b hb hl hr hc => ?_⟩
  have hp : (0 : ℚ) ≤ largestPenalty left.maxValue.toNat levels c.toNat s.toNat :=
    le_max_of_le_left (by positivity)
  have hb' : (0 : ℚ) ≤ s.toNat * b := mul_nonneg (Nat.cast_nonneg _) hb
  have hb'' : (0 : ℚ) ≤ s.toNat * b + part * largestPenalty left.maxValue.toNat levels c.toNat s.toNat := add_nonneg hb' (mul_nonneg h0 hp)
  have := (h L 0 b hl (hc.misfit hb'') hr).1
  rw [mul_zero, max_eq_right hb'] at this
  exact hc.map hl q10 q11 q12 hL this

end

section
variable {B : Nat} {jobs : UInt64} {world : World Double} {allowed : (Nat → Nat) → Prop}

/-- **C125**. If there is a clear labeling and a map is written, then it is that labeling, whatever the weights, threads and schedules. -/
theorem C125_clear (hw : world.Reasonable jobs) (hruns : world.Runs B jobs) (hcpu : world.CpuOnly) (cl : CommandLine) (out : Outcome)
    (h : program world cl = .ok out) (path text : Text) (hwr : out.written = some (path, text)) : world.ClearFound (1 / 2 ^ 47) cl text :=
  (C123_not_worse hw hruns hcpu cl out h path text hwr).clear (by norm_num)

/-- The same with `float` on devices. -/
theorem C125_clear_device (hw : world.Reasonable jobs) (hruns : world.Runs B jobs)
    (hdev : world.Devices (Ieee.convert : Double → Single) allowed) (cl : CommandLine) (out : Outcome)
    (h : program world cl = .ok out) (path text : Text) (hwr : out.written = some (path, text)) : world.ClearFound (1 / 2 ^ 19) cl text :=
  (C123_not_worse_device hw hruns hdev cl out h path text hwr).clear (by norm_num)

/-- Without errors, if weights multiplied by squares of differences of intensities or levels are at most `2^53`. -/
theorem C125_clear_exact (hw : world.Reasonable jobs) (hruns : world.Runs B jobs) (hcpu : world.CpuOnly) (cl : CommandLine)
    (hr : ∀ o l r, cl = .parsed o → o.leftImage = some l → o.rightImage = some r → world.InRange 53 o l r) (out : Outcome)
    (h : program world cl = .ok out) (path text : Text) (hwr : out.written = some (path, text)) : world.ClearFound 0 cl text :=
  (C123_not_worse_exact hw hruns hcpu cl hr out h path text hwr).clear le_rfl

/-- The same with `float` on devices, if they are at most `2^24`. -/
theorem C125_clear_device_exact (hw : world.Reasonable jobs) (hruns : world.Runs B jobs)
    (hdev : world.Devices (Ieee.convert : Double → Single) allowed) (cl : CommandLine)
    (hr : ∀ o l r, cl = .parsed o → o.leftImage = some l → o.rightImage = some r → world.InRange 24 o l r) (out : Outcome)
    (h : program world cl = .ok out) (path text : Text) (hwr : out.written = some (path, text)) : world.ClearFound 0 cl text :=
  (C123_not_worse_device_exact hw hruns hdev cl hr out h path text hwr).clear le_rfl

end

/-! ## Threads that work in turn find the labeling -/

section
variable {w h : Nat} {E : EdgeRel} {S : NodeSet} {L : Nat → Nat → Nat}

/-- Each pixel has one node. If all of them remain after all the pixels have been processed, then they are connected. -/
theorem sweep_single {jobs : Nat} (hj : 0 < jobs) (hS : ∀ x y d, S x y d → d = L x y) (hal : AllAlive w h (sweep w h E (solveOrder w h jobs) S)) :
    Consistent w h E S L := by
  intro x y hx hy
  obtain ⟨ps, qs, e⟩ := List.append_of_mem ((mem_solveOrder (p := (x, y)) hj).2 ⟨hx, hy⟩)
  obtain ⟨d, hd⟩ := hal x y hx hy
  have h0 := sweep_sub _ _ _ _ hd
  obtain rfl := hS x y d h0
  refine ⟨h0, fun k hk => ?_⟩
  rw [e, sweep_append, sweep_cons] at hd
  obtain ⟨d', h1, h2⟩ := (sweep_sub _ _ _ _ hd).2 ⟨rfl, rfl⟩ k hk
  obtain rfl := hS _ _ d' (sweep_sub _ _ _ _ h1)
  exact h2

end

section
variable {F : Type} [FloatOps F] [LawfulFloat F] {g : DisparityGraph F} {jobs : ℕ} {L : ℕ → ℕ → ℕ} {T : F}

/-- At thresholds up to `T` only nodes of `L` are available. Then `L` is feasible whenever `solve_csp` says that something is. -/
theorem single_solved (hg : g.Fresh) (hj : 0 < jobs) (hfit : g.h + jobs ≤ 18446744073709551616)
    (hS : ∀ x y d, g.IsNode x y d → (∀ d', g.IsNode x y d' → le (sub (g.nodeQ x y d) (g.nodeQ x y d')) T = true) → d = L x y)
    {p : LowestPenalties F} {t : F} (ht : le t T = true) (hp : Tables g p) (h : SolvedAt (UInt64.ofNat jobs) g p t true) : g.FeasibleAt t L := by
  obtain ⟨r, hr, hb⟩ := h
  obtain ⟨c, hc, a1, a2, a3, a4, a5, -, a7⟩ := start_mk hg hp t
  rw [hc, bind_ok] at hr
  have eh : c.h = g.h := by unfold ConstraintGraph.h; rw [a4]
  obtain ⟨r', hr', -, -, b3⟩ := solveCsp_mk a1 a2 hj (by rw [eh]; exact hfit)
  rw [hr] at hr'
  cases hr'
  rcases b3 with ⟨hal, -, -⟩ | ⟨-, -, b3⟩
  · refine (feasible_iff_consistent hg a3 a4 a5 a7).1 (sweep_single hj (fun x y d hd => ?_) hal)
    obtain ⟨h3, h4⟩ := (a7 _ _ _).1 hd
    exact hS x y d h3 fun d' hd' => LawfulFloat.le_trans _ _ _ ((node_iff hg h3).1 h4 d' hd') ht
  · rw [b3] at hb
    cases hb

end

section
variable {F : Type} [FloatOps F] [LawfulFloat F] {ψ : F → ℚ} {P Q : F → Prop} {i : ℕ} {left right : Image} {levels : UInt64} {c s jobs : ℕ} {L : ℕ → ℕ → ℕ}
  {b : ℚ}

/-- At some threshold there is no other labeling. -/
theorem clear_forced (car : Carrier ψ P i) (hQ : ∀ a b, P a → P b → Q (sub a b)) (hcut : Cut ψ Q) (hc : c ≤ 2 ^ i) (hs : s ≤ 2 ^ i)
    (hin : FromInput i (freshGraph left right levels (ofNat c : F) (ofNat s))) (hg : (freshGraph left right levels (ofNat c : F) (ofNat s)).Fresh)
    (hgq : (freshGraph left right levels (ofNat c : ℚ) (ofNat s)).Fresh) (hj : 0 < jobs) (hfit : right.height.toNat + jobs ≤ 18446744073709551616)
    (h0 : 0 ≤ b) (hL : Labels right levels.toNat L) (hb : Rough right L b) (h : Clear left right levels.toNat c L (s * b)) :
    (freshGraph left right levels (ofNat c : F) (ofNat s)).Forced jobs L := by
  have hmap := fresh_map (F := F) car (left := left) (right := right) (levels := levels) hc hs
  have hsb : (0 : ℚ) ≤ s * b := mul_nonneg (Nat.cast_nonneg _) h0
  have hq := hL.feasible (t := s * b) hgq (h.misfit hsb) hb (by rw [mul_zero]; exact hsb) le_rfl
  rw [← hmap] at hq
  rcases hcut (s * b) with hno | ⟨t, h1, h2⟩
  · exfalso
    obtain ⟨n1, n2, -⟩ := hq 0 0 hg.width_pos hg.height_pos
    have := n2 _ n1
    obtain ⟨p1, e1⟩ := hin.nodeQ car 0 0 (L 0 0)
    rw [e1, ← car.sub _ _ p1 p1, hno _ (hQ _ _ p1 p1)] at this
    cases this
  · have hS : ∀ x y d, (freshGraph left right levels (ofNat c : F) (ofNat s)).IsNode x y d →
        (∀ d', (freshGraph left right levels (ofNat c : F) (ofNat s)).IsNode x y d' →
          le (sub ((freshGraph left right levels (ofNat c : F) (ofNat s)).nodeQ x y d) ((freshGraph left right levels (ofNat c : F) (ofNat s)).nodeQ x y d')) t = true) →
        d = L x y := by
      intro x y d n1 n2
      by_contra hne
      have hx : x < right.width.toNat := n1.1
      have hy : y < right.height.toNat := n1.2.1
      obtain ⟨l1, l2⟩ := hL.node x y hx hy
      have h3 := h x y d n1.2.2.2 hy n1.2.2.1 hne
      have h4 := h2 _ (n2 (L x y) ⟨hx, hy, l1, l2⟩)
      obtain ⟨p1, e1⟩ := hin.nodeQ car x y d
      obtain ⟨p2, e2⟩ := hin.nodeQ car x y (L x y)
      rw [show ψ (sub _ _) = sub (ψ _) (ψ _) from car.sub _ _ p1 p2, ← e1, ← e2, hmap, fresh_nodeQ, fresh_nodeQ] at h4
      replace h4 := of_decide_eq_true h4
      change (c : ℚ) * (((right.at x y : ℕ) - (left.at (x + d) y : ℕ) : ℚ) * ((right.at x y : ℕ) - (left.at (x + d) y : ℕ))) -
        (c : ℚ) * (((right.at x y : ℕ) - (left.at (x + L x y) y : ℕ) : ℚ) * ((right.at x y : ℕ) - (left.at (x + L x y) y : ℕ))) ≤ s * b at h4
      rw [← sq, ← sq] at h4
      linarith
    exact ⟨t, hin.feasible car (fun a b ha hb => h1 _ (hQ a b ha hb)) hq, fun y n R _ _ hR => hS n y (R n) (hR n le_rfl).1 (hR n le_rfl).2.1,
      fun p t' ht hp hsol => single_solved hg hj hfit hS ht hp hsol⟩

/-- A clear labeling is found by threads that work in turn. -/
theorem C125_found_map (car : Carrier ψ P i) (hQ : ∀ a b, P a → P b → Q (sub a b)) (hcut : Cut ψ Q) (hc : c ≤ 2 ^ i) (hs : s ≤ 2 ^ i)
    (hin : FromInput i (freshGraph left right levels (ofNat c : F) (ofNat s))) (hg : (freshGraph left right levels (ofNat c : F) (ofNat s)).Fresh)
    (hgq : (freshGraph left right levels (ofNat c : ℚ) (ofNat s)).Fresh) (hj : 0 < jobs) (hfit : right.height.toNat + jobs ≤ 18446744073709551616)
    (h0 : 0 ≤ b) (hL : Labels right levels.toNat L) (hb : Rough right L b) (h : Clear left right levels.toNat c L (s * b)) :
    Ok (disparityMap (UInt64.ofNat jobs) (freshGraph left right levels (ofNat c : F) (ofNat s)))
      (MapOf (freshGraph left right levels (ofNat c : F) (ofNat s)) L) :=
  disparityMap_only hg hj hfit (clear_forced car hQ hcut hc hs hin hg hgq hj hfit h0 hL hb h)

end

section
variable {B : Nat} {world : World Double} {o : Options} {l r p : Text} {g : DisparityGraph Double} {left right : Image} {levels c s : UInt64} {L : ℕ → ℕ → ℕ} {b : ℚ}

/-- **C125**: one thread always finds a clear labeling. -/
theorem C125_program (hw : world.Reasonable 1) (hruns : world.Runs B 1) (hcpu : world.CpuOnly)
    (hl : o.leftImage = some l) (hr : o.rightImage = some r) (hp : o.outputImage = some p) (hnone : o.parallel = none) (hrange : world.InRange 53 o l r)
    (hg : readGraph world o l r = .ok g) (hleft : readImage world l = .ok left) (hright : readImage world r = .ok right)
    (hlevels : levelsOption left o.disparityLevels = .ok levels) (hc : weightNumber o.cleanness = .ok c) (hsm : weightNumber o.smoothness = .ok s)
    (h0 : 0 ≤ b) (hL : Labels right levels.toNat L) (hb : Rough right L b) (h : Clear left right levels.toNat c.toNat L (s.toNat * b)) :
    ∃ out im text, program world (.parsed o) = .ok out ∧ out.exit = 0 ∧ out.err = [] ∧ im.width = right.width ∧ im.height = right.height ∧
      im.maxValue = levels ∧ (∀ x y, x < right.width.toNat → y < right.height.toNat → im.at x y = L x y) ∧
      writePgm (some im) = .ok text ∧ out.written = if world.writable p then some (p, text) else none := by
  refine World.writes_exact hw hruns hcpu hl hr hp hnone hrange hg hleft hright hlevels hc hsm (fun x y hx hy => hL.node x y hx hy) ?_
  intro a1 a2 a3 a4 a5 _ a6
  exact C125_found_map (Format.value_carrier (by decide)) (Format.difference_of (by decide)) (Format.cut_value (by decide)) a1 a2 a3 a4 a5 Nat.one_pos a6 h0 hL hb h

end

/-! ## Non-vacuity -/

/-- A clear labeling of images `3 × 2` and the written map. -/
example : program (imagesWorld "P2 3 2 99 0 20 40 0 20 40" "P2 3 2 99 20 20 40 0 40 40" (fun _ => solveCsp 1) none) (.parsed (imagesOptions "2" "1" "1" none)) =
      .ok { exit := 0, written := some (bytes "o", bytes "P2\n3 2\n2\n1 0 0\n0 1 0\n") } ∧
    Labels ⟨3, 2, 99, #[20, 20, 40, 0, 40, 40]⟩ 2 (fun x y => if x = y then 1 else 0) ∧
    Rough ⟨3, 2, 99, #[20, 20, 40, 0, 40, 40]⟩ (fun x y => if x = y then 1 else 0) 1 ∧
    Clear ⟨3, 2, 99, #[0, 20, 40, 0, 20, 40]⟩ ⟨3, 2, 99, #[20, 20, 40, 0, 40, 40]⟩ 2 1 (fun x y => if x = y then 1 else 0) ((1 : ℕ) * 1) := by
  refine ⟨by decide +kernel, ⟨fun x y hx hy => ?_, fun x y hx hy => ?_⟩, ⟨fun x y hx hy => ?_, fun x y hx hy => ?_⟩, fun x y d hx hy hd hne => ?_⟩
  · change x < 3 at hx
    change y < 2 at hy
    show (if x = y then 1 else 0) < 2 ∧ x + (if x = y then 1 else 0) < 3
    split_ifs <;> omega
  · show (if x = y then 1 else 0) ≤ (if x + 1 = y then 1 else 0) + 1
    split_ifs <;> omega
  · simp only
    split_ifs <;> norm_num
  · simp only
    split_ifs <;> norm_num
  · have h : ∀ (x : Fin 3) (y d : Fin 2), x.1 + d.1 < 3 → d.1 ≠ (if x.1 = y.1 then 1 else 0) →
        ((1 : ℕ) : ℚ) * (((Image.mk 3 2 99 #[20, 20, 40, 0, 40, 40]).at x y : ℚ) -
            (Image.mk 3 2 99 #[0, 20, 40, 0, 20, 40]).at (x.1 + if x.1 = y.1 then 1 else 0) y) ^ 2 + (1 : ℕ) * 1 <
          ((1 : ℕ) : ℚ) * (((Image.mk 3 2 99 #[20, 20, 40, 0, 40, 40]).at x y : ℚ) - (Image.mk 3 2 99 #[0, 20, 40, 0, 20, 40]).at (x.1 + d.1) y) ^ 2 := by
      decide +kernel
    change x + d < 3 at hx
    exact h ⟨x, by omega⟩ ⟨y, hy⟩ ⟨d, hd⟩ hx hne

/-- The labeling has to be clear: other disparities of two pixels are worse by `400`, and with smoothness `401` the program finds nothing. -/
example : program (imagesWorld "P2 3 2 99 0 20 40 0 20 40" "P2 3 2 99 20 20 40 0 40 40" (fun _ => solveCsp 1) none) (.parsed (imagesOptions "2" "1" "399" none)) =
      .ok { exit := 0, written := some (bytes "o", bytes "P2\n3 2\n2\n1 0 0\n0 1 0\n") } ∧
    program (imagesWorld "P2 3 2 99 0 20 40 0 20 40" "P2 3 2 99 20 20 40 0 40 40" (fun _ => solveCsp 1) none) (.parsed (imagesOptions "2" "1" "401" none)) =
      .ok { exit := 0, err := [.logicError "Cannot find labeling. This should not ever happen. Refer to the developers."] } := by
  refine ⟨by decide +kernel, by decide +kernel⟩

end SP
