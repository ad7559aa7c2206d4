import Verif.Props.Clear
import Verif.Props.TwoLevelsDevice
/-!
# C124, C125: devices

If the threshold is found by one thread and there is only one labeling to be found, then whatever looks for the labeling finds it.
-/
set_option maxRecDepth 1000000
namespace SP
open FloatOps ConstraintGraph Gpu

section
variable {F D : Type} [FloatOps F] [LawfulFloat F] [FloatOps D] {g : DisparityGraph F} {L : ℕ → ℕ → ℕ} {n : UInt64} {solve : Solver F}

/-- Threads that work in turn leave only nodes of the labeling. -/
theorem par_solvedGraph_only (hs : solve.InTurn n) (hg : g.Fresh) (hj : 0 < n.toNat) (hfit : g.h + n.toNat ≤ 18446744073709551616)
    (hL : g.Forced n.toNat L) :
    Ok (Par.solvedGraph solve g) fun r => r.1.disparityGraph = g ∧ r.1.Valid ∧ r.1.Proper ∧ Consistent r.1.w r.1.h r.1.E r.1.Av L ∧
      ∀ x y d, r.1.Av x y d → d = L x y := by
  rw [(par_solvedGraph_inTurn hs hg hj hfit).1]
  have h := solvedGraph_only hg hj hfit hL
  rw [UInt64.ofNat_toNat, ← par_solvedGraph_seq] at h
  obtain ⟨c, hc, h⟩ := h
  cases hm : Par.solvedGraph (fun _ => solveCsp n) g with
  | error e => rw [hm] at hc; cases hc
  | ok r =>
    rw [hm] at hc
    cases hc
    exact ⟨r, rfl, h⟩

/-- The whole computation with any function that finds the labeling. -/
theorem par_labeledMap_only {E : Err → Prop} {label : ℕ → ConstraintGraph F → M (ConstraintGraph F × Bool)} (hs : solve.InTurn n) (hg : g.Fresh)
    (hj : 0 < n.toNat) (hfit : g.h + n.toNat ≤ 18446744073709551616) (hL : g.Forced n.toNat L)
    (hl : ∀ k c, c.disparityGraph = g → c.Valid → c.Proper → Consistent c.w c.h c.E c.Av L → (∀ x y d, c.Av x y d → d = L x y) → Res E (label k c) fun r =>
      r.2 = true ∧ c.Same r.1 ∧ r.1.Valid ∧ Sub r.1.Av c.Av ∧ r.1.Single ∧ Sub (labelingNodes c.w c.h L) r.1.Av) :
    Res E (Par.labeledMap solve label g) (MapOf g L) := by
  unfold Par.labeledMap
  refine Res.bind (par_solvedGraph_only hs hg hj hfit hL).res ?_
  rintro ⟨c, calls⟩ ⟨q1, q2, q3, q4, q5⟩
  simp only at q1 q2 q3 q4 q5
  refine Res.bind (hl calls c q1 q2 q3 q4 q5) ?_
  rintro ⟨c', b⟩ ⟨h1, h2, h3, h4, h5, h6⟩
  simp only at h1 h2 h3 h4 h5 h6
  subst h1
  simp only [Bool.not_true, Bool.false_eq_true, if_false]
  rw [← h2.w_eq, ← h2.h_eq] at h6
  have := buildDisparityMap_of h3 (h2.proper q3 h4) h5 h6
  rw [h2.1, q1] at this
  exact this.res

variable {conv : F → D} {allowed : (ℕ → ℕ) → Prop} {find find' : ConstraintGraph F → M (ConstraintGraph F × Bool)}

/-- The only labeling is found by a device, unless it fails. -/
theorem Gpu.Finder.only [LawfulFloat D] (hf : Finder conv allowed find) (hconv : Faithful conv)
    (hlim : ∀ c, (∃ e, DeviceFails e ∧ find' c = .error e) ∨ find' c = find c) (hs : solve.InTurn n) (hg : g.Fresh)
    (hj : 0 < n.toNat) (hfit : g.h + n.toNat ≤ 18446744073709551616) (hL : g.Forced n.toNat L) :
    Res (fun e => DeviceFails e ∨ ∃ kernel : Kernel D, IsKernel kernel ∧ Misses kernel allowed e) (Par.labeledMap solve (fun _ => find') g) (MapOf g L) := by
  refine par_labeledMap_only hs hg hj hfit hL fun k c h1 h2 h3 h4 h5 => ?_
  subst h1
  rcases hlim c with ⟨e, he, h⟩ | h
  · rw [h]
    exact .inl he
  · rw [h]
    refine (hf.best h2 h3 (by rw [onDevice_E hconv h2]; exact h4) (LocallyBest.keeps ?_ ?_)).weaken fun e he => .inr he
    · intro x y d hd
      refine (notWorse_onDevice hconv h2).2 ?_
      obtain rfl := h5 x y d hd
      exact ⟨LawfulFloat.le_refl _, fun h => absurd h (lt_irrefl _)⟩
    · exact onDevice_nodeQ_nonneg hconv h2 (nodeQ_nonneg hg)

end

/-! ## The program -/

section
variable {F : Type} [FloatOps F] [LawfulFloat F] {n : UInt64} {world : World F} {o : Options} {l r p : Text} {g : DisparityGraph F} {L : ℕ → ℕ → ℕ}
  {allowed : (ℕ → ℕ) → Prop}

theorem World.finds_forced (hw : world.Reasonable n) (hs : world.solve.InTurn n) (hdev : world.Devices (fun a : F => a) allowed)
    (hl : o.leftImage = some l) (hr : o.rightImage = some r) (hp : o.outputImage = some p) (hg : readGraph world o l r = .ok g)
    (f1 : g.Fresh) (f2 : g.h + n.toNat ≤ 18446744073709551616) (f3 : g.w * g.h < 2147483648)
    (hnode : ∀ x y, x < g.w → y < g.h → g.IsNode x y (L x y)) (hL : g.Forced n.toNat L) :
    world.FindsOrFails o p (MapOf g L) := by
  have hprog : program world (.parsed o) = match chooseParallelism world o.parallel with
      | none => .ok { exit := 1, err := [.unexpected "`parallel` cannot be"] }
      | some (out, label) => handle out (compute world o label l r p) := by
    unfold program
    simp only [hl, hr, hp]
    rfl
  unfold World.FindsOrFails
  rw [hprog]
  cases hc : chooseParallelism world o.parallel with
  | none =>
    refine .inr ⟨_, rfl, .inl ⟨?_, rfl, .inl rfl⟩⟩
    rintro hn
    rw [hn] at hc
    cases hc
  | some q =>
    obtain ⟨ms, f⟩ := q
    simp only
    have hrest : ∀ {im : Image}, MapOf g L im →
        Par.labeledMap world.solve f g = .ok im →
        ∃ out, handle ms (compute world o f l r p) = .ok out ∧ out.exit = 0 ∧ out.err = [] ∧ ∃ im text,
          MapOf g L im ∧ writePgm (some im) = .ok text ∧
          out.written = if world.writable p then some (p, text) else none := by
      intro im him hm
      obtain ⟨m1, m2⟩ := (him.sized hnode).meaningful f1 f3
      obtain ⟨text, ht, -⟩ := writePgm_mk m1 m2
      unfold compute
      rw [hg, bind_ok, hm, bind_ok, ht, bind_ok]
      refine ⟨_, rfl, rfl, rfl, im, text, him, ht, ?_⟩
      unfold World.stored
      simp only [hw.room]
    have herr : ∀ {e : Err}, Par.labeledMap world.solve f g = .error e → compute world o f l r p = .error e := by
      intro e he
      unfold compute
      rw [hg, bind_ok, he]
      rfl
    have hsplit : f = Par.labelCpu world.solve ∨ (o.parallel ≠ none ∧ ∃ find find', Finder (fun a : F => a) allowed find ∧
        (∀ c, (∃ e, DeviceFails e ∧ find' c = .error e) ∨ find' c = find c) ∧ f = fun _ => find') := by
      by_cases hpar : o.parallel = none
      · rw [hpar] at hc
        cases hc
        exact .inl rfl
      · exact (chooseParallelism_finder hdev hc).imp id fun h => ⟨hpar, h⟩
    rcases hsplit with hcpu | ⟨hpar, find, find', hf, hlim, hcpu⟩
    · have := disparityMap_only f1 hw.jobs_pos f2 hL
      rw [UInt64.ofNat_toNat, ← par_disparityMap_inTurn hs f1 hw.jobs_pos f2, disparityMap_labeled, ← hcpu] at this
      obtain ⟨im, hm, him⟩ := this
      obtain ⟨out, h1, h2⟩ := hrest him hm
      exact .inr ⟨out, h1, .inr h2⟩
    · have := hf.only .id hlim hs f1 hw.jobs_pos f2 hL
      rw [← hcpu] at this
      cases hm : Par.labeledMap world.solve f g with
      | ok im =>
        rw [hm] at this
        obtain ⟨out, h1, h2⟩ := hrest this hm
        exact .inr ⟨out, h1, .inr h2⟩
      | error e =>
        rw [hm] at this
        rw [herr hm]
        rcases this with h | ⟨kernel, h1, h2⟩
        · refine .inr ?_
          rcases h with rfl | ⟨what, rfl⟩
          · exact ⟨_, rfl, .inl ⟨hpar, rfl, .inr (by simp)⟩⟩
          · exact ⟨_, rfl, .inl ⟨hpar, rfl, .inl rfl⟩⟩
        · obtain rfl := h2.1
          exact .inl ⟨hpar, rfl⟩

end

/-- The map is that of the labeling. -/
structure LabelingMap (right : Image) (levels : UInt64) (L : ℕ → ℕ → ℕ) (im : Image) : Prop where
  width : im.width = right.width
  height : im.height = right.height
  levels : im.maxValue = levels
  value : ∀ x y, x < right.width.toNat → y < right.height.toNat → im.at x y = L x y

section
variable {B : Nat} {world : World Double} {allowed : (Nat → Nat) → Prop} {o : Options} {l r p : Text} {g : DisparityGraph Double} {left right : Image}
  {levels c s : UInt64} {L : ℕ → ℕ → ℕ} {k : ℕ} {a b : ℚ}

/-- If there is only one labeling to be found, then the program with one thread finds it, unless a device fails. -/
theorem World.finds_exact (hw : world.Reasonable 1) (hruns : world.Runs B 1) (hdev : world.Devices (Ieee.convert : Double → Single) allowed)
    (hl : o.leftImage = some l) (hr : o.rightImage = some r) (hp : o.outputImage = some p) (hrange : world.InRange 24 o l r)
    (hg : readGraph world o l r = .ok g) (hleft : readImage world l = .ok left) (hright : readImage world r = .ok right)
    (hlevels : levelsOption left o.disparityLevels = .ok levels) (hc : weightNumber o.cleanness = .ok c) (hsm : weightNumber o.smoothness = .ok s)
    (hL : ∀ x y, x < right.width.toNat → y < right.height.toNat → L x y < levels.toNat ∧ x + L x y < right.width.toNat)
    (hforced : c.toNat ≤ 2 ^ 24 → s.toNat ≤ 2 ^ 24 → FromInput 24 (freshGraph left right levels (ofNat c.toNat : Format.binary32.Num) (ofNat s.toNat)) →
      (freshGraph left right levels (ofNat c.toNat : Format.binary32.Num) (ofNat s.toNat)).Fresh →
      (freshGraph left right levels (ofNat c.toNat : ℚ) (ofNat s.toNat)).Fresh → levels.toNat ≤ right.width.toNat →
      right.height.toNat + 1 ≤ 18446744073709551616 →
      (freshGraph left right levels (ofNat c.toNat : Format.binary32.Num) (ofNat s.toNat)).Forced 1 L) :
    world.FindsOrFails o p (LabelingMap right levels L) := by
  obtain ⟨world', h1, h2, h3⟩ := World.pullDevice carrier_mixed carrier_single (Ieee.convert_of _) hruns hdev
  have hk : 24 ≤ Format.binary32.digits := by decide
  have hw' : world'.Reasonable 1 := ⟨h1.memory ▸ hw.memory, hw.jobs_pos, hw.jobs_small, h1.room ▸ hw.room⟩
  have hread : ∀ t, readImage world' t = readImage world t := fun t => (readImage_transfer h1 t).symm
  have hrange' : world'.InRange 24 o l r := by
    intro left right levels c s
    rw [hread, hread]
    exact hrange left right levels c s
  have hsim := readGraph_transfer carrier_mixed h1 o l r hrange'
  rw [hg] at hsim
  cases hg' : readGraph world' o l r with
  | error e => rw [hg'] at hsim; exact hsim.elim
  | ok g' =>
  rw [hg'] at hsim
  obtain ⟨left', right', levels', c', s', q1, q2, q3, q4, q5, ha, hls, hrs, hsmall, rfl⟩ := readGraph_ok hw' hg'
  rw [hread, hleft] at q1
  rw [hread, hright] at q2
  cases q1
  cases q2
  rw [hlevels] at q3
  cases q3
  rw [weightOption_eq, hc] at q4
  rw [weightOption_eq, hsm] at q5
  cases q4
  cases q5
  obtain ⟨f1, f2, f3⟩ := fresh_limits hw' ha hls hrs hsmall
  obtain ⟨hc24, hs24, -⟩ := hrange left right levels c s hleft hright hlevels hc hsm
  have haq := accepted_map (Format.value_carrier hk) hc24 hs24 ha
  have hturn : world'.solve.InTurn 1 := h2.elim Solver.Possible.inTurn fun h => h ▸ Solver.InTurn.seq 1
  have h := World.finds_forced hw' hturn h3 hl hr hp hg' f1 f2 f3 (fun x y hx hy => ⟨hx, hy, (hL x y hx hy).1, (hL x y hx hy).2⟩)
    (hforced hc24 hs24 hsim.1 f1 (freshGraph_fresh hls hrs haq (accepted_fits haq hls hsmall)) (ha.2.2.2.2.1 ▸ ha.2.2.2.1) f2)
  unfold World.FindsOrFails at h ⊢
  rw [program_transfer carrier_mixed h1 _ fun o' l' r' e1 e2 e3 => by cases e1; rw [hl] at e2; rw [hr] at e3; cases e2; cases e3; exact hrange']
  refine h.imp id ?_
  rintro ⟨out, e1, e2⟩
  refine ⟨out, e1, e2.imp id ?_⟩
  rintro ⟨e3, e4, im, text, e5, e6, e7⟩
  exact ⟨e3, e4, im, text, ⟨e5.width, e5.height, e5.levels, e5.value⟩, e6, by rw [e7, h1.writable]⟩

/-- **C124**, devices: with one thread the map of the shift is found whatever looks for the labeling, if numbers are not rounded, unless a device fails. -/
theorem C124_program_device (hw : world.Reasonable 1) (hruns : world.Runs B 1) (hdev : world.Devices (Ieee.convert : Double → Single) allowed)
    (hl : o.leftImage = some l) (hr : o.rightImage = some r) (hp : o.outputImage = some p) (hrange : world.InRange 24 o l r)
    (hg : readGraph world o l r = .ok g) (hleft : readImage world l = .ok left) (hright : readImage world r = .ok right)
    (hlevels : levelsOption left o.disparityLevels = .ok levels) (hc : weightNumber o.cleanness = .ok c) (hsm : weightNumber o.smoothness = .ok s)
    (hk : k < levels.toNat) (h : Shifted left right k a) (hd : Distinct left right levels.toNat k c.toNat (max (c.toNat * a) s.toNat)) :
    world.FindsOrFails o p (LabelingMap right levels (staircase right.width.toNat k)) := by
  refine World.finds_exact hw hruns hdev hl hr hp hrange hg hleft hright hlevels hc hsm (fun x y hx hy => (staircase_labels hk).node x y hx hy) ?_
  intro a1 a2 a3 a4 a5 a6 a7
  exact shift_forced (Format.value_carrier (by decide)) (Format.difference_of (by decide)) (Format.cut_value (by decide)) a1 a2 a3 a4 a5 Nat.one_pos a7 hk a6 h hd

/-- **C125**, devices: with one thread a clear labeling is found whatever looks for it. -/
theorem C125_program_device (hw : world.Reasonable 1) (hruns : world.Runs B 1) (hdev : world.Devices (Ieee.convert : Double → Single) allowed)
    (hl : o.leftImage = some l) (hr : o.rightImage = some r) (hp : o.outputImage = some p) (hrange : world.InRange 24 o l r)
    (hg : readGraph world o l r = .ok g) (hleft : readImage world l = .ok left) (hright : readImage world r = .ok right)
    (hlevels : levelsOption left o.disparityLevels = .ok levels) (hc : weightNumber o.cleanness = .ok c) (hsm : weightNumber o.smoothness = .ok s)
    (h0 : 0 ≤ b) (hL : Labels right levels.toNat L) (hb : Rough right L b) (h : Clear left right levels.toNat c.toNat L (s.toNat * b)) :
    world.FindsOrFails o p (LabelingMap right levels L) := by
  refine World.finds_exact hw hruns hdev hl hr hp hrange hg hleft hright hlevels hc hsm (fun x y hx hy => hL.node x y hx hy) ?_
  intro a1 a2 a3 a4 a5 _ a7
  exact clear_forced (Format.value_carrier (by decide)) (Format.difference_of (by decide)) (Format.cut_value (by decide)) a1 a2 a3 a4 a5 Nat.one_pos a7 h0 hL hb h

end

/-! ## Non-vacuity -/

/-- The images of `four_shifted` and a device. -/
def shiftWorld (launch : Launcher Single) : World Double :=
  imagesWorld "P2 4 1 99 0 20 40 60" "P2 4 1 99 40 60 55 60" (fun _ => solveCsp 1) (some (findLabelingCl Ieee.convert launch))

/-- C124: a device with `float` finds the map. -/
example : ∃ world : World Double, world.Reasonable 1 ∧ world.Runs 64 1 ∧ world.Devices (Ieee.convert : Double → Single) (· = id) ∧
    world.InRange 24 (imagesOptions "3" "1" "1" (some "CL")) (bytes "l") (bytes "r") ∧
    (∃ g, readGraph world (imagesOptions "3" "1" "1" (some "CL")) (bytes "l") (bytes "r") = .ok g) ∧
    world.FindsOrFails (imagesOptions "3" "1" "1" (some "CL")) (bytes "o") (LabelingMap ⟨4, 1, 99, #[40, 60, 55, 60]⟩ 3 (staircase 4 2)) ∧
    program world (.parsed (imagesOptions "3" "1" "1" (some "CL"))) =
      .ok { exit := 0, out := [.openCL], written := some (bytes "o", bytes "P2\n4 1\n3\n2 2 1 0\n") } := by
  have h4 : program (shiftWorld (computed cspIteration id floatTurns)) (.parsed (imagesOptions "3" "1" "1" (some "CL"))) =
      .ok { exit := 0, out := [.openCL], written := some (bytes "o", bytes "P2\n4 1\n3\n2 2 1 0\n") } := by decide +kernel
  have h5 : program (shiftWorld (.ofTurns cspIteration id floatTurns)) (.parsed (imagesOptions "3" "1" "1" (some "CL"))) =
      .ok { exit := 0, out := [.openCL], written := some (bytes "o", bytes "P2\n4 1\n3\n2 2 1 0\n") } := by
    rcases refines_program (world := shiftWorld (.ofTurns cspIteration id floatTurns))
      (world' := shiftWorld (computed cspIteration id floatTurns)) computed_refines rfl rfl (imagesOptions "3" "1" "1" (some "CL")) rfl with ⟨e, -, he⟩ | he
    · rw [he] at h4; cases h4
    · rw [he]; exact h4
  have key : ∀ {α : Type} {m : M α} {a : α}, m.toOption = some a → m = .ok a := by
    intro α m a h
    cases m with
    | error e => cases h
    | ok a => cases h; rfl
  have e1 : readImage (shiftWorld (.ofTurns cspIteration id floatTurns)) (bytes "l") = .ok ⟨4, 1, 99, #[0, 20, 40, 60]⟩ := by
    have : (readImage (shiftWorld fun _ _ => .error .ub) (bytes "l")).toOption = some ⟨4, 1, 99, #[0, 20, 40, 60]⟩ := by decide +kernel
    exact key this
  have e2 : readImage (shiftWorld (.ofTurns cspIteration id floatTurns)) (bytes "r") = .ok ⟨4, 1, 99, #[40, 60, 55, 60]⟩ := by
    have : (readImage (shiftWorld fun _ _ => .error .ub) (bytes "r")).toOption = some ⟨4, 1, 99, #[40, 60, 55, 60]⟩ := by decide +kernel
    exact key this
  have hlev : levelsOption ⟨4, 1, 99, #[0, 20, 40, 60]⟩ (some (bytes "3")) = .ok 3 := by decide +kernel
  have hone : weightNumber (some (bytes "1")) = .ok 1 := by decide +kernel
  have hin : (shiftWorld (.ofTurns cspIteration id floatTurns)).InRange 24 (imagesOptions "3" "1" "1" (some "CL")) (bytes "l") (bytes "r") := by
    refine World.inRange_of (show 1000 < 2147483648 by decide) _ _ _ 0 7 0 2 (by omega) (by omega)
      (fun c hc => by rw [show (imagesOptions "3" "1" "1" (some "CL")).cleanness = some (bytes "1") from rfl, hone] at hc; cases hc; decide)
      (fun c hc => by rw [show (imagesOptions "3" "1" "1" (some "CL")).smoothness = some (bytes "1") from rfl, hone] at hc; cases hc; decide) ?_ ?_
    · intro im hi
      rw [e1] at hi
      cases hi
      refine ⟨by decide, fun n hn => ?_⟩
      rw [show (imagesOptions "3" "1" "1" (some "CL")).disparityLevels = some (bytes "3") from rfl, hlev] at hn
      cases hn
      decide
    · intro im hi
      rw [e2] at hi
      cases hi
      decide
  have hg : ∃ g, readGraph (shiftWorld (.ofTurns cspIteration id floatTurns)) (imagesOptions "3" "1" "1" (some "CL")) (bytes "l") (bytes "r") = .ok g := by
    have : (readGraph (shiftWorld fun _ _ => .error .ub) (imagesOptions "3" "1" "1" (some "CL")) (bytes "l") (bytes "r")).toBool = true := by decide +kernel
    have h' : readGraph (shiftWorld (.ofTurns cspIteration id floatTurns)) (imagesOptions "3" "1" "1" (some "CL")) (bytes "l") (bytes "r") =
        readGraph (shiftWorld fun _ _ => .error .ub) (imagesOptions "3" "1" "1" (some "CL")) (bytes "l") (bytes "r") := rfl
    rw [h']
    cases hm : readGraph (shiftWorld fun _ _ => .error .ub) (imagesOptions "3" "1" "1" (some "CL")) (bytes "l") (bytes "r") with
    | ok g => exact ⟨g, rfl⟩
    | error e => rw [hm] at this; cases this
  obtain ⟨g, hg⟩ := hg
  have h1 : (shiftWorld (.ofTurns cspIteration id floatTurns)).Reasonable 1 := ⟨by show 1000 < 2147483648; decide, by decide, by decide, fun _ => rfl⟩
  have h3 : (shiftWorld (.ofTurns cspIteration id floatTurns)).Devices (Ieee.convert : Double → Single) (· = id) := by
    refine ⟨fun f hf => ?_, fun f hf => by cases hf⟩
    cases hf
    exact ⟨_, float_launch, .inl rfl⟩
  exact ⟨_, h1, .inr rfl, h3, hin, ⟨g, hg⟩, C124_program_device (B := 64) h1 (.inr rfl) h3 rfl rfl rfl hin hg e1 e2 hlev hone hone (by decide)
    four_shifted.1 four_shifted.2, h5⟩

end SP
