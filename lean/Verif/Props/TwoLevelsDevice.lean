import Verif.Props.TwoLevels
import Verif.Props.FloatDevice
/-!
# C120: two disparity levels and devices

If the threshold is found by one thread and smoothness is weak, then whatever looks for the labeling finds it.
-/
set_option maxRecDepth 1000000
namespace SP
open FloatOps ConstraintGraph Gpu

section
variable {F D : Type} [FloatOps F] [LawfulFloat F] [FloatOps D] {g : DisparityGraph F} {L : ℕ → ℕ → ℕ} {n : UInt64} {solve : Solver F}

/-- The same with threads that work in turn. -/
theorem par_solvedGraph_keeps (hs : solve.InTurn n) (hg : g.Fresh) (hj : 0 < n.toNat) (hfit : g.h + n.toNat ≤ 18446744073709551616)
    (hL : ∀ p t, Tables g p → SolvedAt n g p t true → g.FeasibleAt t L) :
    Ok (Par.solvedGraph solve g) fun r => r.1.disparityGraph = g ∧ r.1.Valid ∧ r.1.Proper ∧ Consistent r.1.w r.1.h r.1.E r.1.Av L := by
  rw [(par_solvedGraph_inTurn hs hg hj hfit).1]
  have h := solvedGraph_keeps (L := L) hg hj hfit (by rw [UInt64.ofNat_toNat]; exact hL)
  rw [UInt64.ofNat_toNat, ← par_solvedGraph_seq] at h
  obtain ⟨c, hc, h⟩ := h
  cases hm : Par.solvedGraph (fun _ => solveCsp n) g with
  | error e => rw [hm] at hc; cases hc
  | ok r =>
    rw [hm] at hc
    cases hc
    exact ⟨r, rfl, h⟩

/-- The whole computation with any function that finds the labeling. -/
theorem par_labeledMap_keeps {E : Err → Prop} {label : ℕ → ConstraintGraph F → M (ConstraintGraph F × Bool)} (hs : solve.InTurn n) (hg : g.Fresh)
    (hj : 0 < n.toNat) (hfit : g.h + n.toNat ≤ 18446744073709551616) (hL : ∀ p t, Tables g p → SolvedAt n g p t true → g.FeasibleAt t L)
    (hl : ∀ k c, c.disparityGraph = g → c.Valid → c.Proper → Consistent c.w c.h c.E c.Av L → Res E (label k c) fun r =>
      r.2 = true ∧ c.Same r.1 ∧ r.1.Valid ∧ Sub r.1.Av c.Av ∧ r.1.Single ∧ Sub (labelingNodes c.w c.h L) r.1.Av) :
    Res E (Par.labeledMap solve label g) (MapOf g L) := by
  unfold Par.labeledMap
  refine Res.bind (par_solvedGraph_keeps hs hg hj hfit hL).res ?_
  rintro ⟨c, calls⟩ ⟨q1, q2, q3, q4⟩
  simp only at q1 q2 q3 q4
  refine Res.bind (hl calls c q1 q2 q3 q4) ?_
  rintro ⟨c', b⟩ ⟨h1, h2, h3, h4, h5, h6⟩
  simp only at h1 h2 h3 h4 h5 h6
  subst h1
  simp only [Bool.not_true, Bool.false_eq_true, if_false]
  rw [← h2.w_eq, ← h2.h_eq] at h6
  have := buildDisparityMap_of h3 (h2.proper q3 h4) h5 h6
  rw [h2.1, q1] at this
  exact this.res

variable {conv : F → D} {allowed : (ℕ → ℕ) → Prop} {find find' : ConstraintGraph F → M (ConstraintGraph F × Bool)}

/-- Best disparities of pixels that are feasible whenever `solve_csp` says that something is are found by a device, unless it fails. -/
theorem Gpu.Finder.keeps [LawfulFloat D] (hf : Finder conv allowed find) (hconv : Faithful conv)
    (hlim : ∀ c, (∃ e, DeviceFails e ∧ find' c = .error e) ∨ find' c = find c) (hs : solve.InTurn n) (hg : g.Fresh)
    (hj : 0 < n.toNat) (hfit : g.h + n.toNat ≤ 18446744073709551616) (hL : ∀ p t, Tables g p → SolvedAt n g p t true → g.FeasibleAt t L)
    (hbest : ∀ x y d, g.IsNode x y d → le (g.nodeQ x y (L x y)) (g.nodeQ x y d) = true ∧ (g.nodeQ x y d = g.nodeQ x y (L x y) → L x y ≤ d)) :
    Res (fun e => DeviceFails e ∨ ∃ kernel : Kernel D, IsKernel kernel ∧ Misses kernel allowed e) (Par.labeledMap solve (fun _ => find') g) (MapOf g L) := by
  refine par_labeledMap_keeps hs hg hj hfit hL fun k c h1 h2 h3 h4 => ?_
  subst h1
  rcases hlim c with ⟨e, he, h⟩ | h
  · rw [h]
    exact .inl he
  · rw [h]
    refine (hf.best h2 h3 (by rw [onDevice_E hconv h2]; exact h4) (LocallyBest.keeps ?_ ?_)).weaken fun e he => .inr he
    · intro x y d hd
      refine (notWorse_onDevice hconv h2).2 ?_
      obtain ⟨b1, b2⟩ := hbest x y d (h3 x y d hd)
      refine ⟨b1, fun hlt => ?_⟩
      rw [LawfulFloat.lt_iff, Bool.eq_false_iff]
      intro hle
      have := b2 (LawfulFloat.le_antisymm _ _ hle b1)
      omega
    · exact onDevice_nodeQ_nonneg hconv h2 (nodeQ_nonneg hg)

end

section
variable {F D : Type} [FloatOps F] [LawfulFloat F] [FloatOps D] [LawfulFloat D] {left right : Image} {c s : F} {n : UInt64} {solve : Solver F}
  {conv : F → D} {allowed : (ℕ → ℕ) → Prop} {find find' : ConstraintGraph F → M (ConstraintGraph F × Bool)}

local notation "G" => freshGraph left right 2 c s

/-- **C120**, devices: if the threshold is found by one thread and smoothness is weak, then better disparities are found by any device that loses nothing
in conversion of numbers, whatever its schedule and work groups, unless it fails or work items miss each other at a barrier. -/
theorem C120_found_device (hf : Finder conv allowed find) (hconv : Faithful conv)
    (hlim : ∀ c, (∃ e, DeviceFails e ∧ find' c = .error e) ∨ find' c = find c) (hs : solve.InTurn n) (hg : (G).Fresh) (hj : 0 < n.toNat)
    (hfit : right.height.toNat + n.toNat ≤ 18446744073709551616) (hweak : SmoothnessWeak left right c s) :
    Res (fun e => DeviceFails e ∨ ∃ kernel : Kernel D, IsKernel kernel ∧ Misses kernel allowed e) (Par.labeledMap solve (fun _ => find') G)
      (MapOf G (betterOfTwo left right c)) :=
  hf.keeps hconv hlim hs hg hj hfit
    (fun p t hp hsol => better_solved hg hj hfit hweak hp (by rw [UInt64.ofNat_toNat]; exact hsol)) better_best

end

/-! ## The program -/

section
variable {F : Type} [FloatOps F]

/-- What the program does, if the map with the property `R` is to be found: it writes this map, unless there is no such technology, the device has failed,
or work items have missed each other at a barrier. -/
def World.FindsOrFails (world : World F) (o : Options) (path : Text) (R : Image → Prop) : Prop :=
  (o.parallel ≠ none ∧ program world (.parsed o) = .error .ub) ∨
  ∃ out, program world (.parsed o) = .ok out ∧
    ((o.parallel ≠ none ∧ out.written = none ∧ (out.exit = 1 ∨ .cudaFailure ∈ out.out)) ∨
      (out.exit = 0 ∧ out.err = [] ∧ ∃ im text, R im ∧ writePgm (some im) = .ok text ∧
        out.written = if world.writable path then some (path, text) else none))

variable [LawfulFloat F] {n : UInt64} {world : World F} {o : Options} {l r p : Text} {left right : Image} {c s : F} {allowed : (ℕ → ℕ) → Prop}

theorem World.finds_two (hw : world.Reasonable n) (hs : world.solve.InTurn n) (hdev : world.Devices (fun a : F => a) allowed)
    (hl : o.leftImage = some l) (hr : o.rightImage = some r) (hp : o.outputImage = some p) (hg : readGraph world o l r = .ok (freshGraph left right 2 c s))
    (f1 : (freshGraph left right 2 c s).Fresh) (f2 : right.height.toNat + n.toNat ≤ 18446744073709551616)
    (f3 : (freshGraph left right 2 c s).w * (freshGraph left right 2 c s).h < 2147483648) (hweak : SmoothnessWeak left right c s) :
    world.FindsOrFails o p (MapOf (freshGraph left right 2 c s) (betterOfTwo left right c)) := by
  have hprog : program world (.parsed o) = match chooseParallelism world o.parallel with
      | none => .ok { exit := 1, err := [.unexpected "`parallel` cannot be"] }
      | some (out, label) => handle out (compute world o label l r p) := by
    unfold program
    simp only [hl, hr, hp]
    rfl
  unfold World.FindsOrFails
  rw [hprog]
  cases hc : chooseParallelism world o.parallel with
  | none =>
    refine .inr ⟨_, rfl, .inl ⟨?_, rfl, .inl rfl⟩⟩
    rintro hn
    rw [hn] at hc
    cases hc
  | some q =>
    obtain ⟨ms, f⟩ := q
    simp only
    have hbetter := better_feasible (left := left) (c := c) f1.smoothness_nonneg f1.width_pos
    have hrest : ∀ {im : Image}, MapOf (freshGraph left right 2 c s) (betterOfTwo left right c) im →
        Par.labeledMap world.solve f (freshGraph left right 2 c s) = .ok im →
        ∃ out, handle ms (compute world o f l r p) = .ok out ∧ out.exit = 0 ∧ out.err = [] ∧ ∃ im text,
          MapOf (freshGraph left right 2 c s) (betterOfTwo left right c) im ∧ writePgm (some im) = .ok text ∧
          out.written = if world.writable p then some (p, text) else none := by
      intro im him hm
      obtain ⟨m1, m2⟩ := (him.sized fun x y hx hy => (hbetter x y hx hy).1).meaningful f1 f3
      obtain ⟨text, ht, -⟩ := writePgm_mk m1 m2
      unfold compute
      rw [hg, bind_ok, hm, bind_ok, ht, bind_ok]
      refine ⟨_, rfl, rfl, rfl, im, text, him, ht, ?_⟩
      unfold World.stored
      simp only [hw.room]
    have herr : ∀ {e : Err}, Par.labeledMap world.solve f (freshGraph left right 2 c s) = .error e → compute world o f l r p = .error e := by
      intro e he
      unfold compute
      rw [hg, bind_ok, he]
      rfl
    have hsplit : f = Par.labelCpu world.solve ∨ (o.parallel ≠ none ∧ ∃ find find', Finder (fun a : F => a) allowed find ∧
        (∀ c, (∃ e, DeviceFails e ∧ find' c = .error e) ∨ find' c = find c) ∧ f = fun _ => find') := by
      by_cases hpar : o.parallel = none
      · rw [hpar] at hc
        cases hc
        exact .inl rfl
      · exact (chooseParallelism_finder hdev hc).imp id fun h => ⟨hpar, h⟩
    rcases hsplit with hcpu | ⟨hpar, find, find', hf, hlim, hcpu⟩
    · have := C120_found_map f1 hw.jobs_pos f2 hweak
      rw [UInt64.ofNat_toNat, ← par_disparityMap_inTurn hs f1 hw.jobs_pos f2, disparityMap_labeled, ← hcpu] at this
      obtain ⟨im, hm, him⟩ := this
      obtain ⟨out, h1, h2⟩ := hrest him hm
      exact .inr ⟨out, h1, .inr h2⟩
    · have := C120_found_device hf .id hlim hs f1 hw.jobs_pos f2 hweak
      rw [← hcpu] at this
      cases hm : Par.labeledMap world.solve f (freshGraph left right 2 c s) with
      | ok im =>
        rw [hm] at this
        obtain ⟨out, h1, h2⟩ := hrest this hm
        exact .inr ⟨out, h1, .inr h2⟩
      | error e =>
        rw [hm] at this
        rw [herr hm]
        rcases this with h | ⟨kernel, h1, h2⟩
        · refine .inr ?_
          rcases h with rfl | ⟨what, rfl⟩
          · exact ⟨_, rfl, .inl ⟨hpar, rfl, .inr (by simp)⟩⟩
          · exact ⟨_, rfl, .inl ⟨hpar, rfl, .inl rfl⟩⟩
        · obtain rfl := h2.1
          exact .inl ⟨hpar, rfl⟩

end

/-! ## Exact penalties -/

section
variable {fmt : Format} {k : ℕ} {left right : Image} {levels : UInt64} {c s : ℕ}

theorem at_le {im : Image} {b : ℕ} (h : ∀ v ∈ im.data, v.toNat ≤ 2 ^ b) (x y : ℕ) : im.at x y ≤ 2 ^ b := by
  unfold Image.at
  rw [Array.getD_eq_getD_getElem?]
  cases hv : im.data[pidx im.width.toNat x y]? with
  | none => exact Nat.zero_le _
  | some v => exact h v (Array.mem_of_getElem? hv)

/-- Numbers that are not rounded give the same penalties as exact numbers. -/
theorem pixel_exact (hk : k ≤ fmt.digits) (h : SP.InRange k left right levels c s) (x y d : ℕ) :
    Ieee.Small k (pixelPenalty left right (ofNat c : fmt.Num) x y d) ∧
      Format.value (pixelPenalty left right (ofNat c : fmt.Num) x y d) = pixelPenalty left right (ofNat c : ℚ) x y d := by
  obtain ⟨a, b, hab, hc, hl, hr⟩ := h.node
  obtain ⟨h1, -, h3⟩ := (Format.value_carrier hk).penalty a b c (right.at x y) (left.at (x + d) y) hab hc (at_le hr x y) (at_le hl (x + d) y)
  exact ⟨h1, h3.symm.trans (LawfulFloat.sub_zero (F := ℚ) _)⟩

theorem step_exact (hk : k ≤ fmt.digits) (h : SP.InRange k left right levels c s) :
    Format.value (stepPenalty (ofNat s : fmt.Num)) = stepPenalty (ofNat s : ℚ) := by
  obtain ⟨a, b, hab, hs, -⟩ := h.edge
  obtain ⟨-, -, h3⟩ := (Format.value_carrier hk).penalty a b s 1 0 hab hs Nat.one_le_two_pow (Nat.zero_le _)
  exact h3.symm.trans (LawfulFloat.sub_zero (F := ℚ) _)

theorem weak_exact (hk : k ≤ fmt.digits) (h : SP.InRange k left right levels c s) :
    SmoothnessWeak left right (ofNat c : fmt.Num) (ofNat s) ↔ SmoothnessWeak left right (ofNat c : ℚ) (ofNat s) := by
  unfold SmoothnessWeak
  refine exists_congr fun x => exists_congr fun y => and_congr_right fun _ => and_congr_right fun _ => ?_
  have hom := (Format.value_carrier hk).toHom
  rw [← hom.le, hom.sub _ _ (pixel_exact hk h x y 0).1 (pixel_exact hk h x y 1).1]
  show le (Format.value _) (sub (Format.value _) (Format.value _)) = true ↔ _
  rw [step_exact hk h, (pixel_exact hk h x y 0).2, (pixel_exact hk h x y 1).2]

theorem better_exact (hk : k ≤ fmt.digits) (h : SP.InRange k left right levels c s) (x y : ℕ) :
    betterOfTwo left right (ofNat c : fmt.Num) x y = betterOfTwo left right (ofNat c : ℚ) x y := by
  unfold betterOfTwo
  have key : lt (pixelPenalty left right (ofNat c : fmt.Num) x y 1) (pixelPenalty left right (ofNat c : fmt.Num) x y 0) =
      lt (pixelPenalty left right (ofNat c : ℚ) x y 1) (pixelPenalty left right (ofNat c : ℚ) x y 0) := by
    rw [← (Format.value_carrier hk).toHom.lt]
    show lt (Format.value _) (Format.value _) = _
    rw [(pixel_exact hk h x y 0).2, (pixel_exact hk h x y 1).2]
  rw [key]

end

section
variable {B : Nat} {world : World Double} {allowed : (Nat → Nat) → Prop} {o : Options} {l r p : Text} {g : DisparityGraph Double} {left right : Image}

/-- **C120**: with one thread the program writes the map with two levels whatever looks for the labeling, if smoothness is weak and numbers are not
rounded, unless a device fails. -/
theorem C120_program_device (hw : world.Reasonable 1) (hruns : world.Runs B 1) (hdev : world.Devices (Ieee.convert : Double → Single) allowed)
    (hl : o.leftImage = some l) (hr : o.rightImage = some r) (hp : o.outputImage = some p) (hrange : world.InRange 24 o l r)
    (hg : readGraph world o l r = .ok g) (hleft : readImage world l = .ok left) (hright : readImage world r = .ok right)
    (hlevels : levelsOption left o.disparityLevels = .ok 2) {c s : UInt64} (hc : weightNumber o.cleanness = .ok c) (hsm : weightNumber o.smoothness = .ok s)
    (hweak : SmoothnessWeak left right (ofNat c.toNat : ℚ) (ofNat s.toNat)) :
    world.FindsOrFails o p (TwoLevelMap left right (ofNat c.toNat : ℚ) (ofNat s.toNat)) := by
  obtain ⟨world', h1, h2, h3⟩ := World.pullDevice carrier_mixed carrier_single (Ieee.convert_of _) hruns hdev
  have hk : 24 ≤ Format.binary32.digits := by decide
  have hw' : world'.Reasonable 1 := ⟨h1.memory ▸ hw.memory, hw.jobs_pos, hw.jobs_small, h1.room ▸ hw.room⟩
  have hread : ∀ t, readImage world' t = readImage world t := fun t => (readImage_transfer h1 t).symm
  have hrange' : world'.InRange 24 o l r := by
    intro left right levels c s
    rw [hread, hread]
    exact hrange left right levels c s
  have hsim := readGraph_transfer carrier_mixed h1 o l r hrange'
  rw [hg] at hsim
  cases hg' : readGraph world' o l r with
  | error e => rw [hg'] at hsim; exact hsim.elim
  | ok g' =>
  obtain ⟨left', right', levels, c', s', q1, q2, q3, q4, q5, ha, hls, hrs, hsmall, rfl⟩ := readGraph_ok hw' hg'
  rw [hread, hleft] at q1
  rw [hread, hright] at q2
  cases q1
  cases q2
  rw [hlevels] at q3
  cases q3
  rw [weightOption_eq, hc] at q4
  rw [weightOption_eq, hsm] at q5
  cases q4
  cases q5
  obtain ⟨f1, f2, f3⟩ := fresh_limits hw' ha hls hrs hsmall
  have hin : SP.InRange 24 left right 2 c.toNat s.toNat := by
    have key : ∀ {i : Image}, i.Sized → i.Meaningful → imageValid i = .ok true := by
      intro i hz hm
      obtain ⟨b, e, hb⟩ := imageValid_mk i hz.size hz.small
      rw [e, hb.2 hm]
    exact (hrange left right 2 c s hleft hright hlevels hc hsm).2.2 (key hls ha.1) (key hrs ha.2.1)
  have hturn : world'.solve.InTurn 1 := h2.elim Solver.Possible.inTurn fun h => h ▸ Solver.InTurn.seq 1
  have h := World.finds_two hw' hturn h3 hl hr hp hg' f1 f2 f3 ((weak_exact hk hin).2 hweak)
  unfold World.FindsOrFails at h ⊢
  rw [program_transfer carrier_mixed h1 _ fun o' l' r' e1 e2 e3 => by cases e1; rw [hl] at e2; rw [hr] at e3; cases e2; cases e3; exact hrange']
  refine h.imp id ?_
  rintro ⟨out, e1, e2⟩
  refine ⟨out, e1, e2.imp id ?_⟩
  rintro ⟨e3, e4, im, text, e5, e6, e7⟩
  refine ⟨e3, e4, im, text, ⟨e5.width, e5.height, fun _ x y hx hy => ?_, fun h => absurd hweak h⟩, e6, by rw [e7, h1.writable]⟩
  rw [← better_exact hk hin]
  exact e5.value x y hx hy

end

/-! ## Non-vacuity -/

/-- Two levels. -/
def twoLevels (parallel : Option String) : Options := { weighted none none parallel with disparityLevels := some (bytes "2") }

/-- C120: a device with `float` finds the map. -/
example : ∃ world : World Double, world.Reasonable 1 ∧ world.Runs 64 1 ∧ world.Devices (Ieee.convert : Double → Single) (· = id) ∧
    world.InRange 24 (twoLevels (some "CL")) (bytes "l") (bytes "r") ∧
    SmoothnessWeak (img 4 1 4 [4, 4, 0, 4]) (img 4 1 4 [4, 0, 0, 4]) (ofNat 1 : ℚ) (ofNat 1) ∧
    (∃ g, readGraph world (twoLevels (some "CL")) (bytes "l") (bytes "r") = .ok g) ∧
    world.FindsOrFails (twoLevels (some "CL")) (bytes "o") (TwoLevelMap (img 4 1 4 [4, 4, 0, 4]) (img 4 1 4 [4, 0, 0, 4]) (ofNat 1 : ℚ) (ofNat 1)) ∧
    program world (.parsed (twoLevels (some "CL"))) =
      .ok { exit := 0, out := [.openCL], written := some (bytes "o", bytes "P2\n4 1\n2\n0 1 0 0\n") } := by
  obtain ⟨h1, h2, h3⟩ := floatWorld_ok float_launch
  have h4 : program (floatWorld (computed cspIteration id floatTurns)) (.parsed (twoLevels (some "CL"))) =
      .ok { exit := 0, out := [.openCL], written := some (bytes "o", bytes "P2\n4 1\n2\n0 1 0 0\n") } := by decide +kernel
  have h4 := float_computed rfl h4
  obtain ⟨e1, e2⟩ := floatWorld_images (Launcher.ofTurns cspIteration id floatTurns)
  have hw : SmoothnessWeak (img 4 1 4 [4, 4, 0, 4]) (img 4 1 4 [4, 0, 0, 4]) (ofNat 1 : ℚ) (ofNat 1) :=
    (smoothnessWeak_exact _ _ 1 1).2 ⟨1, 0, by decide, by decide, by decide +kernel⟩
  have hlev : levelsOption (img 4 1 4 [4, 4, 0, 4]) (some (bytes "2")) = .ok 2 := by decide +kernel
  have hin : (floatWorld (Launcher.ofTurns cspIteration id floatTurns)).InRange 24 (twoLevels (some "CL")) (bytes "l") (bytes "r") := by
    refine World.inRange_of (show 1000 < 2147483648 by decide) _ _ _ 0 2 0 2 (by omega) (by omega) (fun c hc => by cases hc; decide) (fun c hc => by cases hc; decide) ?_ ?_
    · intro im hi
      rw [e1] at hi
      cases hi
      refine ⟨by decide, fun n hn => ?_⟩
      rw [show (twoLevels (some "CL")).disparityLevels = some (bytes "2") from rfl, hlev] at hn
      cases hn
      decide
    · intro im hi
      rw [e2] at hi
      cases hi
      decide
  have hg : ∃ g, readGraph (floatWorld (Launcher.ofTurns cspIteration id floatTurns)) (twoLevels (some "CL")) (bytes "l") (bytes "r") = .ok g := by
    have : (readGraph (floatWorld fun _ _ => .error .ub) (twoLevels (some "CL")) (bytes "l") (bytes "r")).toBool = true := by decide +kernel
    have h' : readGraph (floatWorld (Launcher.ofTurns cspIteration id floatTurns)) (twoLevels (some "CL")) (bytes "l") (bytes "r") =
        readGraph (floatWorld fun _ _ => .error .ub) (twoLevels (some "CL")) (bytes "l") (bytes "r") := rfl
    rw [h']
    cases hm : readGraph (floatWorld fun _ _ => .error .ub) (twoLevels (some "CL")) (bytes "l") (bytes "r") with
    | ok g => exact ⟨g, rfl⟩
    | error e => rw [hm] at this; cases this
  obtain ⟨g, hg⟩ := hg
  exact ⟨_, h1, h2, h3, hin, hw, ⟨g, hg⟩, C120_program_device h1 h2 h3 rfl rfl rfl hin hg e1 e2 hlev rfl rfl hw, h4⟩

end SP
