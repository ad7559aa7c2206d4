import Verif.Props.Main
import Verif.Props.Gpu
import Verif.Lemmas.CudaLimits
/-!
# Properties C61, C62: the whole program
-/
set_option linter.unusedSectionVars false

namespace SP
open FloatOps Gpu
variable {F : Type} [FloatOps F] {B : Nat} {jobs : UInt64}

/-! ## How the program is executed -/

/-- The program is built without OpenCL and CUDA. -/
def World.CpuOnly (world : World F) : Prop := world.openCL = none ∧ world.cuda = none

/-- Calls of `solve_csp` by `jobs` threads: concurrent, with any schedules, or one worker after another. -/
def World.Runs (world : World F) (B : Nat) (jobs : UInt64) : Prop :=
  world.solve.Possible B jobs ∨ world.solve = fun _ => solveCsp jobs

/-- If the program is built with OpenCL or CUDA, then its kernels are executed with any schedules of work items divided into groups
somehow; numbers are converted by `conv`. A CUDA device may have limits, OpenCL may fail. -/
structure World.Devices {D : Type} [FloatOps D] (world : World F) (conv : F → D) (allowed : (Nat → Nat) → Prop) : Prop where
  openCL : ∀ f, world.openCL = some f → ∃ launch : Launcher D, launch.Possible cspIteration allowed ∧
    (f = findLabelingCl conv launch ∨ ∃ failure, f = findLabelingClFailing failure conv launch)
  cuda : ∀ f, world.cuda = some f → ∃ launch : Launcher D, launch.Possible cspIterationCuda allowed ∧
    (f = findLabelingCuda conv launch ∨ ∃ limits, f = findLabelingCudaLimited limits conv launch)

/-- A program without OpenCL and CUDA uses no devices. -/
theorem World.CpuOnly.devices {world : World F} (h : world.CpuOnly) :
    world.Devices (fun a : F => a) (fun _ => False) :=
  ⟨fun f hf => (by rw [h.1] at hf; cases hf), fun f hf => (by rw [h.2] at hf; cases hf)⟩

/-- Limits within which the program is proved to work: there is memory for less than `2^31` intensities, the number of threads
is reasonable, and there is room for files (see C89 for others). -/
structure World.Reasonable (world : World F) (jobs : UInt64) : Prop where
  memory : world.memory < 2147483648
  jobs_pos : 0 < jobs.toNat
  jobs_small : jobs.toNat ≤ 4294967296
  room : ∀ path, world.room path = none

/-- A CUDA device with limits may end the process, OpenCL may fail. -/
def DeviceFails (e : Err) : Prop := e = .exit ∨ ∃ what, e = .exc (.other what)

/-- The labeling is found by the processor or by a device, unless the device fails. -/
theorem chooseParallelism_finder {D : Type} [FloatOps D] {world : World F} {conv : F → D} {allowed : (Nat → Nat) → Prop}
    (h : world.Devices conv allowed) {p : Option Text} {out : List Message} {f : Labeler F}
    (hc : chooseParallelism world p = some (out, f)) :
    f = Par.labelCpu world.solve ∨ ∃ find find', Finder conv allowed find ∧ (∀ c, (∃ e, DeviceFails e ∧ find' c = .error e) ∨ find' c = find c) ∧
      f = fun _ => find' := by
  have hcl : ∀ find', world.openCL = some find' →
      ∃ find, Finder conv allowed find ∧ ∀ c, (∃ e, DeviceFails e ∧ find' c = .error e) ∨ find' c = find c := by
    intro find hf
    obtain ⟨launch, h1, rfl | ⟨failure, rfl⟩⟩ := h.openCL find hf
    · exact ⟨_, .cl launch h1, fun c => .inr rfl⟩
    · exact ⟨_, .cl launch h1, fun c => (findLabelingClFailing_cases c).imp_left fun ⟨w, h⟩ => ⟨_, .inr ⟨w, rfl⟩, h⟩⟩
  have hcu : ∀ find', world.cuda = some find' →
      ∃ find, Finder conv allowed find ∧ ∀ c, (∃ e, DeviceFails e ∧ find' c = .error e) ∨ find' c = find c := by
    intro find hf
    obtain ⟨launch, h1, rfl | ⟨limits, rfl⟩⟩ := h.cuda find hf
    · exact ⟨_, .cuda launch h1, fun c => .inr rfl⟩
    · exact ⟨_, .cuda launch h1, fun c => (findLabelingCudaLimited_cases c).imp_left fun h => ⟨_, .inl rfl, h⟩⟩
  unfold chooseParallelism at hc
  split at hc
  · cases hc; exact .inl rfl
  · dsimp only at hc
    repeat' split at hc
    all_goals first
      | (cases hc; exact .inl rfl)
      | (cases hc; exact .inr ((hcl _ (by assumption)).imp fun find h => ⟨_, h.1, h.2, rfl⟩))
      | (cases hc; exact .inr ((hcu _ (by assumption)).imp fun find h => ⟨_, h.1, h.2, rfl⟩))
      | cases hc

theorem labeledMap_limited {solve : Solver F} {find find' : ConstraintGraph F → M (ConstraintGraph F × Bool)}
    (h : ∀ c, (∃ e, DeviceFails e ∧ find' c = .error e) ∨ find' c = find c) {g : DisparityGraph F} {im : Image}
    (him : Par.labeledMap solve (fun _ => find') g = .ok im) : Par.labeledMap solve (fun _ => find) g = .ok im := by
  unfold Par.labeledMap at him ⊢
  obtain ⟨⟨c, calls⟩, h1, him⟩ := bind_eq_ok him
  rw [h1, bind_ok]
  rcases h c with ⟨e, -, hc⟩ | hc
  · simp only [hc] at him; cases him
  · simp only [hc] at him; exact him

theorem chooseParallelism_cpu {world : World F} (h : world.CpuOnly) {p : Option Text} {out : List Message} {f : Labeler F}
    (hc : chooseParallelism world p = some (out, f)) : f = Par.labelCpu world.solve := by
  unfold chooseParallelism at hc
  rw [h.1, h.2] at hc
  dsimp only at hc
  repeat' split at hc
  all_goals first | (cases hc; rfl) | cases hc

/-! ## The disparity graph -/

/-- What is read from a file. -/
theorem readImage_ok {world : World F} {path : Text} {im : Image} (h : readImage world path = .ok im) :
    ∃ text, world.file path = some text ∧ PgmOf (instructions text) im ∧ im.data.size ≤ world.memory := by
  unfold readImage at h
  cases hf : world.file path with
  | none => rw [hf] at h; cases h
  | some text =>
    rw [hf] at h
    dsimp only at h
    cases hr : readPgm world.memory none (.opened text) with
    | error e => rw [hr] at h; cases h
    | ok r =>
      obtain ⟨s, o⟩ := r
      rw [hr, bind_ok] at h
      dsimp only at h
      cases hs : s.fail
      · rw [hs] at h
        simp only [Bool.false_eq_true, if_false] at h
        cases o with
        | none => cases h
        | some im' =>
          cases h
          obtain ⟨im', h1, h2, h3, -⟩ := (C51_accepted_exactly world.memory none text (some im)).1 ⟨s, hr, hs⟩
          cases h1
          exact ⟨text, rfl, h2, h3⟩
      · rw [hs] at h
        simp only [if_true] at h
        cases h

theorem pgmOf_sized {ts : List Text} {im : Image} {n : Nat} (h : PgmOf ts im) (hs : im.data.size ≤ n) (hn : n < 2147483648) :
    im.Sized := by
  obtain ⟨a, b, c, ds, -, -, -, -, -, h5, -⟩ := h
  exact ⟨h5, by omega⟩

theorem accepted_fits {left right : Image} {levels : UInt64} {cleanness smoothness : F}
    (ha : AcceptedInput left right levels cleanness smoothness) (hs : left.Sized) (hsmall : left.data.size < 2147483648) :
    left.width.toNat * left.height.toNat * 4 * levels.toNat < 18446744073709551616 := by
  obtain ⟨⟨h1, h2, h3, h4⟩, -, h5, h6, -⟩ := ha
  have hl : levels.toNat ≤ left.data.size := by
    rw [hs.size]
    calc levels.toNat ≤ left.width.toNat := h6
      _ = left.width.toNat * 1 := (Nat.mul_one _).symm
      _ ≤ left.width.toNat * left.height.toNat := Nat.mul_le_mul_left _ h2
  rw [← hs.size]
  have h7 : left.data.size * 4 * levels.toNat ≤ 2147483647 * 4 * 2147483647 :=
    Nat.mul_le_mul (Nat.mul_le_mul_right _ (by omega)) (by omega)
  omega

/-- What the disparity graph is made of. -/
theorem readGraph_ok {world : World F} (hw : world.Reasonable jobs) {o : Options} {l r : Text} {g : DisparityGraph F}
    (h : readGraph world o l r = .ok g) :
    ∃ left right levels cleanness smoothness, readImage world l = .ok left ∧ readImage world r = .ok right ∧
      levelsOption left o.disparityLevels = .ok levels ∧ weightOption o.cleanness = .ok cleanness ∧
      weightOption o.smoothness = .ok smoothness ∧ AcceptedInput left right levels cleanness smoothness ∧
      left.Sized ∧ right.Sized ∧ left.data.size < 2147483648 ∧
      g = freshGraph left right levels cleanness smoothness := by
  unfold readGraph at h
  cases h1 : readImage world l with
  | error e => rw [h1] at h; cases h
  | ok left =>
    rw [h1, bind_ok] at h
    cases h2 : readImage world r with
    | error e => rw [h2] at h; cases h
    | ok right =>
      rw [h2, bind_ok] at h
      cases h3 : levelsOption left o.disparityLevels with
      | error e => rw [h3] at h; cases h
      | ok levels =>
        rw [h3, bind_ok] at h
        cases h4 : (weightOption o.cleanness : M F) with
        | error e => rw [h4] at h; cases h
        | ok cleanness =>
          rw [h4, bind_ok] at h
          cases h5 : (weightOption o.smoothness : M F) with
          | error e => rw [h5] at h; cases h
          | ok smoothness =>
            rw [h5, bind_ok] at h
            obtain ⟨tl, -, pl, sl⟩ := readImage_ok h1
            obtain ⟨tr, -, pr, sr⟩ := readImage_ok h2
            have hl := pgmOf_sized pl sl hw.memory
            have hr := pgmOf_sized pr sr hw.memory
            by_cases ha : AcceptedInput left right levels cleanness smoothness
            · rw [(mkDisparityGraph_mk hl hr).1 ha] at h
              cases h
              have := hw.memory
              exact ⟨left, right, levels, cleanness, smoothness, rfl, rfl, h3, rfl, rfl, ha, hl, hr, by omega, rfl⟩
            · obtain ⟨what, e⟩ := (mkDisparityGraph_mk hl hr).2 ha
              rw [e] at h
              cases h

theorem fresh_limits [LawfulFloat F] {world : World F} (hw : world.Reasonable jobs) {left right : Image} {levels : UInt64}
    {cleanness smoothness : F} (ha : AcceptedInput left right levels cleanness smoothness) (hl : left.Sized) (hr : right.Sized)
    (hs : left.data.size < 2147483648) :
    (freshGraph left right levels cleanness smoothness).Fresh ∧
    (freshGraph left right levels cleanness smoothness).h + jobs.toNat ≤ 18446744073709551616 ∧
    (freshGraph left right levels cleanness smoothness).w * (freshGraph left right levels cleanness smoothness).h < 2147483648 := by
  refine ⟨freshGraph_fresh hl hr ha (accepted_fits ha hl hs), ?_⟩
  have hj := hw.jobs_small
  have hsz := hl.size
  obtain ⟨⟨h1, h2, -⟩, -, -, -, h7, h8, -⟩ := ha
  have e1 : (freshGraph left right levels cleanness smoothness).h = left.height.toNat := by
    show right.height.toNat = _
    rw [h8]
  have e2 : (freshGraph left right levels cleanness smoothness).w = left.width.toNat := by
    show right.width.toNat = _
    rw [h7]
  rw [e1, e2, ← hsz]
  have h3 : left.height.toNat ≤ left.data.size := by
    rw [hsz]
    calc left.height.toNat = 1 * left.height.toNat := (Nat.one_mul _).symm
      _ ≤ left.width.toNat * left.height.toNat := Nat.mul_le_mul_right _ h1
  exact ⟨by omega, hs⟩

/-- The map is a valid image. -/
theorem SizedMap.meaningful {g : DisparityGraph F} {im : Image} (hg : g.Fresh) (hs : g.w * g.h < 2147483648)
    (h : SizedMap g im) : im.Sized ∧ im.Meaningful := by
  have ew : im.width.toNat = g.w := by rw [h.width]; rfl
  have eh : im.height.toNat = g.h := by rw [h.height]; rfl
  have hsz : im.Sized := ⟨by rw [h.size, ew, eh], by rw [h.size]; omega⟩
  refine ⟨hsz, by rw [ew]; exact hg.width_pos, by rw [eh]; exact hg.height_pos, by rw [h.levels]; exact hg.levels_pos, ?_⟩
  intro v hv
  obtain ⟨i, hi, rfl⟩ := Array.getElem_of_mem hv
  rw [h.levels]
  have hwpos : 0 < g.w := hg.width_pos
  have hx : i % g.w < g.w := Nat.mod_lt _ hwpos
  have hy : i / g.w < g.h := Nat.div_lt_of_lt_mul (by rw [← h.size]; exact hi)
  have hat : im.at (i % g.w) (i / g.w) = im.data[i].toNat := by
    have e : i % g.w + g.w * (i / g.w) = i := Nat.mod_add_div _ _
    simp only [Image.at, pidx, ew, e]
    simp [Array.getD, hi]
  have := h.below _ _ hx hy
  rw [hat] at this
  have e5 : g.levels = g.disparityLevels.toNat := rfl
  omega

theorem BestMap.sized {g : DisparityGraph F} {t : F} {im : Image} (h : BestMap g t im) : SizedMap g im :=
  ⟨h.width, h.height, h.levels, h.size, fun x y hx hy => (h.best.1 x y hx hy).1.2.2.1⟩

/-! ## C62: what is written -/
section
variable {D : Type} [FloatOps D] [LawfulFloat F] [LawfulFloat D] {world : World F} {conv : F → D} {allowed : (Nat → Nat) → Prop}

/-- Whatever the way to find a labeling, the map is the best one. -/
theorem World.map_best (hruns : world.Runs B jobs) (hdev : world.Devices conv allowed) (hconv : Faithful conv)
    {p : Option Text} {out : List Message} {f : Labeler F} (hc : chooseParallelism world p = some (out, f))
    {g : DisparityGraph F} (hg : g.Fresh) (hj : 0 < jobs.toNat) (hfit : g.h + jobs.toNat ≤ 18446744073709551616)
    {im : Image} (him : Par.labeledMap world.solve f g = .ok im) : ∃ t, BestMap g t im := by
  rcases chooseParallelism_finder hdev hc with rfl | ⟨find, find', hf, hlim, rfl⟩
  · rw [← disparityMap_labeled] at him
    rcases hruns with hs | hs
    · exact C80_best_map hs hg hj hfit him
    · rw [hs, C71_whole] at him
      exact C80_sequential hg hj hfit him
  · replace him := labeledMap_limited hlim him
    rcases hruns with hs | hs
    · exact C80_best_map_gpu hf hconv hs hg hj hfit him
    · obtain ⟨solve, h1, h2⟩ := Solver.Possible.seq (F := F) 64 jobs
      rw [hs] at him
      rcases refines_labeledMap (label := fun _ => find) h2 g with ⟨e, -, h⟩ | h
      · rw [him] at h
        cases h
      · exact C80_best_map_gpu hf hconv h1 hg hj hfit (h.trans him)

omit [LawfulFloat D] [FloatOps D] in
/-- The options, the images and the map of a written file, if maps have the property `R`. -/
theorem World.written_of {R : DisparityGraph F → Image → Prop} (hw : world.Reasonable jobs)
    (hmap : ∀ p out f, chooseParallelism world p = some (out, f) → ∀ g : DisparityGraph F, g.Fresh → g.h + jobs.toNat ≤ 18446744073709551616 →
      ∀ im, Par.labeledMap world.solve f g = .ok im → SizedMap g im ∧ R g im) {cl : CommandLine} {out : Outcome} (h : program world cl = .ok out) {path text : Text}
    (hwr : out.written = some (path, text)) :
    out.exit = 0 ∧ out.err = [] ∧ ∃ (o : Options) (l r : Text) (left right : Image) (levels : UInt64) (cleanness smoothness : F) (im : Image),
      cl = .parsed o ∧ o.outputImage = some path ∧ o.leftImage = some l ∧ o.rightImage = some r ∧
      readImage world l = .ok left ∧ readImage world r = .ok right ∧
      levelsOption left o.disparityLevels = .ok levels ∧ weightOption o.cleanness = .ok cleanness ∧
      weightOption o.smoothness = .ok smoothness ∧ AcceptedInput left right levels cleanness smoothness ∧
      (freshGraph left right levels cleanness smoothness).Fresh ∧ SizedMap (freshGraph left right levels cleanness smoothness) im ∧
      im.Sized ∧ im.Meaningful ∧ im.data.size ≤ world.memory ∧ writePgm (some im) = .ok text ∧
      R (freshGraph left right levels cleanness smoothness) im := by
  rcases program_cases world cl with ⟨e, h1, h2⟩ | ⟨h1, -⟩ | ⟨h1, -⟩ | ⟨o, l, r, p, ms, f, hcl, hl, hr, hp, hc, h1⟩
  · rw [h] at h1; cases h1; cases hwr
  · rw [h] at h1; cases h1; cases hwr
  · rw [h] at h1; cases h1; cases hwr
  rw [h] at h1
  rcases handle_cases ms (compute world o f l r p) with ⟨w, h4, h3⟩ | ⟨e, msg, -, h4, h3⟩ | ⟨e, -, h3⟩ | ⟨h4, h3⟩ | ⟨-, h3⟩
  · rw [h3] at h1
    cases h1
    simp only at hwr
    subst hwr
    refine ⟨rfl, rfl, ?_⟩
    unfold compute at h4
    cases hg : readGraph world o l r with
    | error e => rw [hg] at h4; cases h4
    | ok g =>
      rw [hg, bind_ok] at h4
      cases him : Par.labeledMap world.solve f g with
      | error e => rw [him] at h4; cases h4
      | ok im =>
        rw [him, bind_ok] at h4
        cases htx : writePgm (some im) with
        | error e => rw [htx] at h4; cases h4
        | ok tx =>
          rw [htx, bind_ok] at h4
          obtain ⟨left, right, levels, cleanness, smoothness, k1, k2, k3, k4, k5, ha, hls, hrs, hsm, rfl⟩ := readGraph_ok hw hg
          have hpt : path = p ∧ text = tx := by
            cases hwp : world.writable p
            · rw [hwp] at h4; cases h4
            · rw [hwp] at h4
              have hst : world.stored p tx = tx := by unfold World.stored; rw [hw.room]
              rw [hst] at h4
              cases h4
              exact ⟨rfl, rfl⟩
          obtain ⟨rfl, rfl⟩ := hpt
          obtain ⟨f1, f2, f3⟩ := fresh_limits hw ha hls hrs hsm
          obtain ⟨hz, hR⟩ := hmap _ _ _ hc _ f1 f2 _ him
          obtain ⟨im1, im2⟩ := hz.meaningful f1 f3
          refine ⟨o, l, r, left, right, levels, cleanness, smoothness, im, hcl, hp, hl, hr, k1, k2, k3, k4, k5, ha, f1, hz, im1, im2,
            ?_, htx, hR⟩
          rw [hz.size]
          obtain ⟨-, -, -, ms⟩ := readImage_ok k2
          rw [hrs.size] at ms
          exact ms
  · rw [h3] at h1; cases h1; cases hwr
  · rw [h3] at h1; cases h1; cases hwr
  · rcases h4 with h4 | h4 <;> rw [h4] at h1 <;> cases h1
  · rw [h3] at h1; cases h1; cases hwr

/-- The options, the images and the map of a written file. -/
theorem World.written (hw : world.Reasonable jobs) (hruns : world.Runs B jobs) (hdev : world.Devices conv allowed)
    (hconv : Faithful conv) {cl : CommandLine} {out : Outcome} (h : program world cl = .ok out) {path text : Text}
    (hwr : out.written = some (path, text)) :
    out.exit = 0 ∧ out.err = [] ∧ ∃ (o : Options) (l r : Text) (left right : Image) (levels : UInt64) (cleanness smoothness : F) (im : Image),
      cl = .parsed o ∧ o.outputImage = some path ∧ o.leftImage = some l ∧ o.rightImage = some r ∧
      readImage world l = .ok left ∧ readImage world r = .ok right ∧
      levelsOption left o.disparityLevels = .ok levels ∧ weightOption o.cleanness = .ok cleanness ∧
      weightOption o.smoothness = .ok smoothness ∧ AcceptedInput left right levels cleanness smoothness ∧
      (freshGraph left right levels cleanness smoothness).Fresh ∧ SizedMap (freshGraph left right levels cleanness smoothness) im ∧
      im.Sized ∧ im.Meaningful ∧ im.data.size ≤ world.memory ∧ writePgm (some im) = .ok text ∧
      ∃ t, BestMap (freshGraph left right levels cleanness smoothness) t im := by
  refine World.written_of (R := fun g im => ∃ t, BestMap g t im) hw (fun p ms f hc g hg hfit im him => ?_) h hwr
  obtain ⟨t, ht⟩ := World.map_best hruns hdev hconv hc hg hw.jobs_pos hfit him
  exact ⟨ht.sized, t, ht⟩

/-- **C62**. Whatever the number of threads and their schedules, and whether the labeling is found by the processor or by a device (with
numbers as good as those of the processor, see C78 for others): whenever the program writes a file, it writes the file given as the
output and returns 0; both input files are images acceptable together with the options; and the file written, if read by the
same reader, is the best of the labelings that are feasible at the least threshold. -/
theorem C62_written_file (hw : world.Reasonable jobs) (hruns : world.Runs B jobs) (hdev : world.Devices conv allowed)
    (hconv : Faithful conv) (cl : CommandLine) (out : Outcome) (h : program world cl = .ok out) (path text : Text)
    (hwr : out.written = some (path, text)) :
    out.exit = 0 ∧ out.err = [] ∧ ∃ (o : Options) (l r : Text) (left right : Image) (levels : UInt64) (cleanness smoothness : F) (im : Image),
      cl = .parsed o ∧ o.outputImage = some path ∧ o.leftImage = some l ∧ o.rightImage = some r ∧
      readImage world l = .ok left ∧ readImage world r = .ok right ∧
      levelsOption left o.disparityLevels = .ok levels ∧ weightOption o.cleanness = .ok cleanness ∧
      weightOption o.smoothness = .ok smoothness ∧ AcceptedInput left right levels cleanness smoothness ∧
      (levels ≤ 65536 → Ok (readPgm world.memory none (.opened text)) fun q => q.1.fail = false ∧ q.2 = some im) ∧
      im.width = left.width ∧ im.height = left.height ∧
      ∃ t, BestMap (freshGraph left right levels cleanness smoothness) t im := by
  obtain ⟨e1, e2, o, l, r, left, right, levels, cleanness, smoothness, im, q1, q2, q3, q4, q5, q6, q7, q8, q9, q10, -, q11, q12, q13, q14, q15,
    q16⟩ := World.written hw hruns hdev hconv h hwr
  refine ⟨e1, e2, o, l, r, left, right, levels, cleanness, smoothness, im, q1, q2, q3, q4, q5, q6, q7, q8, q9, q10, fun hlev => ?_, ?_, ?_, q16⟩
  · obtain ⟨tx', e1, e2⟩ := C46_round_trip im q12 q13 (by rw [q11.levels]; exact hlev) world.memory q14 none
    rw [q15] at e1
    cases e1
    exact e2
  · rw [q11.width]; exact q10.2.2.2.2.1.symm
  · rw [q11.height]; exact q10.2.2.2.2.2.1.symm

/-- Two readings of the same file give the same image, whatever the memory. -/
theorem readImage_unique {world world' : World F} (hfile : world'.file = world.file) {path : Text} {im im' : Image}
    (h : readImage world path = .ok im) (h' : readImage world' path = .ok im') : im = im' := by
  have key : ∀ {w : World F} {i : Image}, readImage w path = .ok i → ∃ text, w.file path = some text ∧
      PgmOf (instructions text) i ∧ i.data.size ≤ 1152921504606846975 := by
    intro w i hi
    unfold readImage at hi
    cases hf : w.file path with
    | none => rw [hf] at hi; cases hi
    | some text =>
      rw [hf] at hi
      dsimp only at hi
      cases hr : readPgm w.memory none (.opened text) with
      | error e => rw [hr] at hi; cases hi
      | ok r =>
        obtain ⟨s, o⟩ := r
        rw [hr, bind_ok] at hi
        dsimp only at hi
        cases hs : s.fail
        · rw [hs] at hi
          simp only [Bool.false_eq_true, if_false] at hi
          cases o with
          | none => cases hi
          | some i' =>
            cases hi
            obtain ⟨i', h1, h2, -, h4⟩ := (C51_accepted_exactly w.memory none text (some i)).1 ⟨s, hr, hs⟩
            cases h1
            exact ⟨text, rfl, h2, h4⟩
        · rw [hs] at hi
          simp only [if_true] at hi
          cases hi
  obtain ⟨t, f1, p1, s1⟩ := key h
  obtain ⟨t', f2, p2, s2⟩ := key h'
  rw [hfile, f1] at f2
  cases f2
  obtain ⟨s, r1, -⟩ := (C51_accepted_exactly 1152921504606846975 none t (some im)).2 ⟨im, rfl, p1, s1, s1⟩
  obtain ⟨s', r2, -⟩ := (C51_accepted_exactly 1152921504606846975 none t (some im')).2 ⟨im', rfl, p2, s2, s2⟩
  rw [r1] at r2
  cases r2
  rfl

/-- The program is a function of its input in the following sense: if two executions with the same files, images, levels and weights
write a file, then they write the same text, whatever the technologies, numbers of threads, schedules, memory and names of the output
files. -/
theorem C62_same_file {D' : Type} [FloatOps D'] [LawfulFloat D'] {world' : World F} {conv' : F → D'} {allowed' : (Nat → Nat) → Prop}
    {B' : Nat} {jobs' : UInt64} (hw : world.Reasonable jobs) (hw' : world'.Reasonable jobs') (hruns : world.Runs B jobs)
    (hruns' : world'.Runs B' jobs') (hdev : world.Devices conv allowed) (hdev' : world'.Devices conv' allowed') (hconv : Faithful conv)
    (hconv' : Faithful conv') (hfile : world'.file = world.file) (o : Options) (parallel' output' : Option Text) (help' : Bool)
    (out out' : Outcome) (h : program world (.parsed o) = .ok out)
    (h' : program world' (.parsed { o with parallel := parallel', outputImage := output', help := help' }) = .ok out')
    (path text path' text' : Text) (hwr : out.written = some (path, text)) (hwr' : out'.written = some (path', text')) : text = text' := by
  obtain ⟨-, -, o1, l, r, left, right, levels, cleanness, smoothness, im, q1, q2, q3, q4, q5, q6, q7, q8, q9, -, -, -, -, -, -, q10, t, q11⟩ :=
    World.written hw hruns hdev hconv h hwr
  obtain ⟨-, -, o2, l', r', left', right', levels', cleanness', smoothness', im', q1', q2', q3', q4', q5', q6', q7', q8', q9', -, -, -, -, -, -,
    q10', t', q11'⟩ := World.written hw' hruns' hdev' hconv' h' hwr'
  cases q1
  cases q1'
  simp only at q3' q4' q7' q8' q9'
  rw [q3] at q3'
  rw [q4] at q4'
  cases q3'
  cases q4'
  obtain rfl := readImage_unique hfile q5 q5'
  obtain rfl := readImage_unique hfile q6 q6'
  rw [q7] at q7'
  rw [q8] at q8'
  rw [q9] at q9'
  cases q7'
  cases q8'
  cases q9'
  obtain ⟨-, rfl⟩ := q11.unique q11'
  rw [q10] at q10'
  cases q10'
  rfl

end

/-! ## C61: safety -/

/-- Neither undefined behaviour nor an infinite loop. -/
def Safe {α : Type} (m : M α) : Prop := m ≠ .error .ub ∧ m ≠ .error .nonterm

theorem Safe.ok {α : Type} (a : α) : Safe (.ok a : M α) := ⟨by simp, by simp⟩
theorem Safe.exc {α : Type} (e : Exc) : Safe (.error (.exc e) : M α) := ⟨by simp, by simp⟩

theorem noExit_bind {α β : Type} {m : M α} {f : α → M β} (hm : m ≠ .error .exit) (hf : ∀ a, m = .ok a → f a ≠ .error .exit) :
    m >>= f ≠ .error .exit := by
  cases m with
  | error e => exact fun h => hm (by cases h; rfl)
  | ok a => exact hf a rfl

theorem stoul_noExit (t : Text) : stoul t ≠ .error .exit := by
  rcases stoul_cases t with ⟨v, h⟩ | h | h <;> rw [h] <;> simp

theorem readPgm_noExit (limit : Nat) (text : Text) : readPgm limit none (.opened text) ≠ .error .exit := by
  have hr := read_outcome limit none text
  rcases readSpec_cases limit none (ts := instructions text) (fun t ht => instructions_valid ht) with
    ⟨e, -⟩ | ⟨e, -⟩ | ⟨e | e, -⟩ | ⟨e, -⟩ | ⟨im, -, e, -⟩ | ⟨ts, t, rest, im, -, -, ⟨e, -⟩ | ⟨e, -⟩⟩
  all_goals
    rw [e] at hr
    first
      | (rw [hr.error_right]; simp; done)
      | (obtain ⟨r, e', -⟩ := hr.ok_right; rw [e']; simp)

theorem readImage_noExit (world : World F) (path : Text) : readImage world path ≠ .error .exit := by
  unfold readImage
  cases world.file path with
  | none => simp [throw, throwThe, MonadExceptOf.throw]
  | some text =>
    refine noExit_bind (readPgm_noExit _ _) ?_
    rintro ⟨s, im⟩ -
    dsimp only
    split
    · simp [throw, throwThe, MonadExceptOf.throw, bind, Except.bind]
    · cases im <;> simp [throw, throwThe, MonadExceptOf.throw, pure, Except.pure]

/-- Reading of files does not end the process. -/
theorem readGraph_noExit {world : World F} (hw : world.Reasonable jobs) {o : Options} {l r : Text} :
    readGraph world o l r ≠ .error .exit := by
  unfold readGraph
  have hweight : ∀ t, (weightOption t : M F) ≠ .error .exit := by
    intro t
    unfold weightOption
    cases t with
    | none => simp
    | some t => rcases stoul_cases t with ⟨v, h⟩ | h | h <;> simp [h, Except.map]
  refine noExit_bind (readImage_noExit _ _) fun left h1 => noExit_bind (readImage_noExit _ _) fun right h2 => noExit_bind ?_ fun levels _ =>
    noExit_bind (hweight _) fun cleanness _ => noExit_bind (hweight _) fun smoothness _ => ?_
  · unfold levelsOption
    split
    · simp
    · exact stoul_noExit _
  · obtain ⟨tl, -, pl, sl⟩ := readImage_ok h1
    obtain ⟨tr, -, pr, sr⟩ := readImage_ok h2
    have hl := pgmOf_sized pl sl hw.memory
    have hr := pgmOf_sized pr sr hw.memory
    by_cases ha : AcceptedInput left right levels cleanness smoothness
    · rw [(mkDisparityGraph_mk hl hr).1 ha]
      simp
    · obtain ⟨what, e⟩ := (mkDisparityGraph_mk hl hr).2 ha
      rw [e]
      simp

theorem Safe.bind {α β : Type} {m : M α} {f : α → M β} (hm : Safe m) (hf : ∀ a, m = .ok a → Safe (f a)) : Safe (m >>= f) := by
  cases m with
  | error e =>
    cases e with
    | ub => exact absurd rfl hm.1
    | nonterm => exact absurd rfl hm.2
    | exc e => exact Safe.exc e
    | exit => exact ⟨nofun, nofun⟩
  | ok a => exact hf a rfl

theorem stoul_safe (t : Text) : Safe (stoul t) := by
  rcases stoul_cases t with ⟨v, h⟩ | h | h <;> rw [h]
  · exact Safe.ok v
  · exact Safe.exc _
  · exact Safe.exc _

/-- The number of intensities fits the machine word. -/
def HarmlessHeader (ts : List Text) : Prop := ∀ w h m, HeaderOf ts w h m → w.toNat * h.toNat < 18446744073709551616

/-- A file whose reading is proved to be safe, see C53. -/
def HarmlessFile (text : Text) : Prop := Ascii text ∧ HarmlessHeader (instructions text)

theorem readImage_safe {world : World F} {path : Text} (hh : ∀ text, world.file path = some text → HarmlessFile text) :
    Safe (readImage world path) := by
  unfold readImage
  cases hf : world.file path with
  | none => exact Safe.exc _
  | some text =>
    dsimp only
    obtain ⟨h1, h2⟩ := hh text hf
    refine Safe.bind (C53_read_safe_partial world.memory none text h2 h1) ?_
    rintro ⟨s, o⟩ -
    dsimp only
    split
    · exact Safe.exc _
    · cases o with
      | none => exact Safe.exc _
      | some im => exact Safe.ok im

theorem readGraph_safe {world : World F} (hw : world.Reasonable jobs) {o : Options} {l r : Text}
    (hl : ∀ text, world.file l = some text → HarmlessFile text) (hr : ∀ text, world.file r = some text → HarmlessFile text) :
    Safe (readGraph world o l r) := by
  unfold readGraph
  refine Safe.bind (readImage_safe hl) fun left h1 => Safe.bind (readImage_safe hr) fun right h2 => ?_
  refine Safe.bind ?_ fun levels _ => Safe.bind ?_ fun cleanness _ => Safe.bind ?_ fun smoothness _ => ?_
  · unfold levelsOption
    split
    · exact Safe.ok _
    · exact stoul_safe _
  · unfold weightOption
    split
    · exact Safe.ok _
    · rename_i t _
      rcases stoul_cases t with ⟨v, h⟩ | h | h <;> rw [h]
      · exact Safe.ok _
      · exact Safe.exc _
      · exact Safe.exc _
  · unfold weightOption
    split
    · exact Safe.ok _
    · rename_i t _
      rcases stoul_cases t with ⟨v, h⟩ | h | h <;> rw [h]
      · exact Safe.ok _
      · exact Safe.exc _
      · exact Safe.exc _
  · obtain ⟨tl, -, pl, sl⟩ := readImage_ok h1
    obtain ⟨tr, -, pr, sr⟩ := readImage_ok h2
    have hl := pgmOf_sized pl sl hw.memory
    have hr := pgmOf_sized pr sr hw.memory
    by_cases ha : AcceptedInput left right levels cleanness smoothness
    · rw [(mkDisparityGraph_mk hl hr).1 ha]
      exact Safe.ok _
    · obtain ⟨what, e⟩ := (mkDisparityGraph_mk hl hr).2 ha
      rw [e]
      exact Safe.exc _

section
variable {D : Type} [FloatOps D] [LawfulFloat F] {world : World F} {conv : F → D} {allowed : (Nat → Nat) → Prop}

theorem compute_safe (hw : world.Reasonable jobs) (hs : world.solve.Possible B jobs) (hdev : world.Devices conv allowed)
    {o : Options} {l r p : Text} (hl : ∀ text, world.file l = some text → HarmlessFile text)
    (hr : ∀ text, world.file r = some text → HarmlessFile text) {value : Option Text} {ms : List Message} {f : Labeler F}
    (hc : chooseParallelism world value = some (ms, f)) :
    Res (fun e => ((∃ ex, e = .exc ex) ∨ e = .exit) ∨ Hangs world.solve B jobs e ∨ ∃ kernel : Kernel D, IsKernel kernel ∧ Misses kernel allowed e)
      (compute world o f l r p) fun _ => True := by
  unfold compute
  have hgs := readGraph_safe hw (o := o) hl hr
  cases hg : readGraph world o l r with
  | error e =>
    rw [hg] at hgs
    cases e with
    | ub => exact absurd rfl hgs.1
    | nonterm => exact absurd rfl hgs.2
    | exc ex => exact .inl (.inl ⟨ex, rfl⟩)
    | exit => exact absurd hg (readGraph_noExit hw)
  | ok g =>
    rw [bind_ok]
    obtain ⟨left, right, levels, cleanness, smoothness, -, -, -, -, -, ha, hls, hrs, hsm, rfl⟩ := readGraph_ok hw hg
    obtain ⟨f1, f2, f3⟩ := fresh_limits hw ha hls hrs hsm
    have hmap : Res (fun e => ((∃ ex, e = .exc ex) ∨ e = .exit) ∨ Hangs world.solve B jobs e ∨ ∃ kernel : Kernel D, IsKernel kernel ∧ Misses kernel allowed e)
        (Par.labeledMap world.solve f (freshGraph left right levels cleanness smoothness))
        (SizedMap (freshGraph left right levels cleanness smoothness)) := by
      rcases chooseParallelism_finder hdev hc with rfl | ⟨find, find', hf, hlim, rfl⟩
      · rw [← disparityMap_labeled]
        refine ((par_disparityMap hs f1 hw.jobs_pos f2).mono fun im ⟨t, ht, _⟩ => ht.toBestMap.sized).weaken ?_
        rintro e (h | ⟨what, h⟩)
        · exact .inr (.inl h)
        · exact .inl (.inl ⟨_, h⟩)
      · refine (par_labeledMap_sized (E := fun e => (∃ kernel : Kernel D, IsKernel kernel ∧ Misses kernel allowed e) ∨ DeviceFails e)
          hs f1 hw.jobs_pos f2 ?_).weaken ?_
        · intro _ c hc hp _
          rcases hlim c with ⟨e, he, h⟩ | h
          · simp only [h]
            exact .inr he
          · simp only [h]
            exact ((hf.res hc hp).mono fun r hr => ⟨hr.1.same, hr.1.valid, hr.1.sub⟩).weaken fun _ => .inl
        rintro e (h | ⟨what, h⟩ | h | h | ⟨what, h⟩)
        · exact .inr (.inl h)
        · exact .inl (.inl ⟨_, h⟩)
        · exact .inr (.inr h)
        · exact .inl (.inr h)
        · exact .inl (.inl ⟨_, h⟩)
    refine Res.bind hmap fun im him => ?_
    obtain ⟨im1, im2⟩ := him.meaningful f1 f3
    obtain ⟨t, e, -⟩ := writePgm_mk im1 im2
    rw [e, bind_ok]
    trivial

/-- What can happen for harmless files. -/
theorem program_safe (hw : world.Reasonable jobs) (hs : world.solve.Possible B jobs) (hdev : world.Devices conv allowed)
    (hfiles : ∀ path text, world.file path = some text → HarmlessFile text) (cl : CommandLine) :
    (Ok (program world cl) fun out => out.exit = 0 ∨ out.exit = 1) ∨
    (program world cl = .error .nonterm ∧ (B ≠ 1 ∧ jobs ≠ 1) ∧ world.solve.HasEndless jobs) ∨
    (program world cl = .error .ub ∧ ∃ kernel : Kernel D, IsKernel kernel ∧ Misses kernel allowed .ub) := by
  rcases program_cases world cl with ⟨e, h1, -⟩ | ⟨h1, -⟩ | ⟨h1, -⟩ | ⟨o, l, r, p, ms, f, hcl, hl, hr, hp, hc, h1⟩
  · exact .inl ⟨_, h1, .inr rfl⟩
  · exact .inl ⟨_, h1, .inl rfl⟩
  · exact .inl ⟨_, h1, .inl rfl⟩
  have hsafe := compute_safe hw hs hdev (o := o) (p := p) (hfiles l) (hfiles r) hc
  rw [h1]
  cases hm : compute world o f l r p with
  | ok w => exact .inl ⟨_, rfl, .inl rfl⟩
  | error e =>
    rw [hm] at hsafe
    rcases hsafe with (⟨ex, rfl⟩ | rfl) | ⟨rfl, h⟩ | ⟨kernel, h2, h3⟩
    · left
      cases ex with
      | invalidArgument w => exact ⟨_, rfl, .inl rfl⟩
      | logicError w => exact ⟨_, rfl, .inl rfl⟩
      | outOfRange => exact ⟨_, rfl, .inl rfl⟩
      | lengthError => exact ⟨_, rfl, .inl rfl⟩
      | badAlloc => exact ⟨_, rfl, .inr rfl⟩
      | other w => exact ⟨_, rfl, .inr rfl⟩
    · exact .inl ⟨_, rfl, .inl rfl⟩
    · exact .inr (.inl ⟨rfl, h⟩)
    · obtain rfl := h3.1
      exact .inr (.inr ⟨rfl, kernel, h2, h3⟩)

/-- **C61**, what holds. Full statement: for every command line and all files within reasonable size limits the program ends with status
0 or 1. It is false (`C61_program_safe_refuted`): several threads may go on forever. Here: for every number of threads and every
schedule, every build and every behaviour of devices, if files are harmless, then the program ends with status 0 or 1; or it goes on
forever, which needs several threads and several flags in a word; or work items of a device miss each other at a barrier. -/
theorem C61_program_safe_partial (hw : world.Reasonable jobs) (hs : world.solve.Possible B jobs) (hdev : world.Devices conv allowed)
    (hfiles : ∀ path text, world.file path = some text → HarmlessFile text) (cl : CommandLine) :
    (Ok (program world cl) fun out => out.exit = 0 ∨ out.exit = 1) ∨
    (program world cl = .error .nonterm ∧ B ≠ 1 ∧ jobs ≠ 1) ∨
    (program world cl = .error .ub ∧ ∃ kernel : Kernel D, IsKernel kernel ∧ Misses kernel allowed .ub) := by
  rcases program_safe hw hs hdev hfiles cl with h | ⟨h1, h2, -⟩ | h
  · exact .inl h
  · exact .inr (.inl ⟨h1, h2⟩)
  · exact .inr (.inr h)

/-- Without GPU support the only thing that can go wrong is that several threads go on forever. -/
theorem C61_threads_partial (hw : world.Reasonable jobs) (hs : world.solve.Possible B jobs) (hcpu : world.CpuOnly)
    (hfiles : ∀ path text, world.file path = some text → HarmlessFile text) (cl : CommandLine) :
    (Ok (program world cl) fun out => out.exit = 0 ∨ out.exit = 1) ∨ (program world cl = .error .nonterm ∧ B ≠ 1 ∧ jobs ≠ 1) := by
  rcases C61_program_safe_partial hw hs hcpu.devices hfiles cl with h | h | ⟨-, kernel, -, -, d, group, P, -, hg, -⟩
  · exact .inl h
  · exact .inr h
  · exact hg.elim

/-- If workers are executed one after another (or there is one thread), the program without GPU support always ends with an exit
status. -/
theorem C61_in_order_partial (hw : world.Reasonable jobs) (hs : world.solve = fun _ => solveCsp jobs) (hcpu : world.CpuOnly)
    (hfiles : ∀ path text, world.file path = some text → HarmlessFile text) (cl : CommandLine) :
    Ok (program world cl) fun out => out.exit = 0 ∨ out.exit = 1 := by
  rcases program_cases world cl with ⟨e, h1, -⟩ | ⟨h1, -⟩ | ⟨h1, -⟩ | ⟨o, l, r, p, ms, f, hcl, hl, hr, hp, hc, h1⟩
  · exact ⟨_, h1, .inr rfl⟩
  · exact ⟨_, h1, .inl rfl⟩
  · exact ⟨_, h1, .inl rfl⟩
  obtain rfl := chooseParallelism_cpu hcpu hc
  have hsafe : Safe (compute world o (Par.labelCpu world.solve) l r p) := by
    unfold compute
    refine Safe.bind (readGraph_safe hw (hfiles l) (hfiles r)) fun g hg => ?_
    obtain ⟨left, right, levels, cleanness, smoothness, -, -, -, -, -, ha, hls, hrs, hsm, rfl⟩ := readGraph_ok hw hg
    obtain ⟨f1, f2, f3⟩ := fresh_limits hw ha hls hrs hsm
    have hm := C11_memory_safe_fresh f1 hw.jobs_pos f2
    rw [UInt64.ofNat_toNat] at hm
    rw [← disparityMap_labeled, hs, C71_whole]
    refine Safe.bind ?_ fun im him => ?_
    · rcases hm with ⟨im, e⟩ | ⟨what, e⟩ <;> rw [e]
      · exact Safe.ok _
      · exact Safe.exc _
    · obtain ⟨t, ht⟩ := C80_sequential f1 hw.jobs_pos f2 him
      obtain ⟨im1, im2⟩ := ht.sized.meaningful f1 f3
      obtain ⟨t, e, -⟩ := writePgm_mk im1 im2
      rw [e, bind_ok]
      exact Safe.ok _
  rcases handle_cases ms (compute world o (Par.labelCpu world.solve) l r p) with ⟨w, -, h3⟩ | ⟨e, msg, -, -, h3⟩ | ⟨e, -, h3⟩ | ⟨h4, -⟩ | ⟨-, h3⟩
  · exact ⟨_, by rw [h1, h3], .inl rfl⟩
  · exact ⟨_, by rw [h1, h3], .inl rfl⟩
  · exact ⟨_, by rw [h1, h3], .inr rfl⟩
  · rcases h4 with h4 | h4
    · exact absurd h4 hsafe.1
    · exact absurd h4 hsafe.2
  · exact ⟨_, by rw [h1, h3], .inl rfl⟩

end

/-! ### The program that never ends -/

/-- Results of `solve_csp` by two threads: the graph `loopStart` is never solved (see C66), others are. -/
def loopSolver (solve : Solver Int) : Solver Int := fun n c => if c = loopStart then .error .nonterm else solve n c

/-- A world with two images, `loopGraph` is made of them. -/
def loopWorld (solve : Solver Int) : World Int :=
  { file := fun p =>
      if p = bytes "l" then some (bytes "P2 2 2 5 5 0 5 0") else if p = bytes "r" then some (bytes "P2 2 2 5 0 0 0 0") else none
    writable := fun _ => true
    memory := 100
    solve := solve }

/-- Options for these images; the levels and the weights are not given. -/
def loopOptions : Options := { leftImage := some (bytes "l"), rightImage := some (bytes "r"), outputImage := some (bytes "o") }

/-- **C61** is false: with two threads the program may go on forever for accepted images and options. -/
theorem C61_program_safe_refuted :
    ∃ world : World Int, world.solve.Possible 64 2 ∧ world.Reasonable 2 ∧ world.CpuOnly ∧
      (∀ path text, world.file path = some text → HarmlessFile text) ∧
      program world (.parsed loopOptions) = .error .nonterm := by
  obtain ⟨solve, h1, h2⟩ := Solver.Possible.exists (F := Int) 64 2 (fun _ => [0, 1]) (by
    intro n
    exact ⟨by decide, by intro i; simp; omega⟩)
  have hposs : (loopSolver solve).Possible 64 2 := by
    intro n c
    unfold loopSolver
    split
    · rename_i h
      subst h
      exact C66_terminates_refuted.2.2.2
    · exact h1 n c
  have href : ∀ n c, Refines (· = .ub) (loopSolver solve n c) (loopSolver (orderSolver 2 fun _ => [0, 1]) n c) := by
    intro n c
    unfold loopSolver
    split
    · exact .refl _
    · exact h2 n c
  refine ⟨loopWorld (loopSolver solve), hposs, ⟨show 100 < 2147483648 by decide, by decide, by decide, fun _ => rfl⟩, ⟨rfl, rfl⟩, ?_, ?_⟩
  · intro path text h
    have : text = bytes "P2 2 2 5 5 0 5 0" ∨ text = bytes "P2 2 2 5 0 0 0 0" := by
      unfold loopWorld at h
      dsimp only at h
      split at h
      · exact .inl (Option.some.inj h).symm
      · split at h
        · exact .inr (Option.some.inj h).symm
        · cases h
    have key : ∀ ds, HarmlessHeader (bytes "P2" :: bytes "2" :: bytes "2" :: bytes "5" :: ds) := by
      rintro ds w h m ⟨a, b, c, ds', e, ha, hb, -⟩
      simp only [List.cons.injEq] at e
      obtain ⟨-, rfl, rfl, -⟩ := e
      have hv : ∀ v, NumberOf (bytes "2") v → v = 2 := by
        intro v hv
        have e1 := (numberOf_iff (instructions_valid (s := bytes "2") (t := bytes "2") (by decide +kernel))).2 hv
        have e2 : stoul (bytes "2") = .ok 2 := by decide +kernel
        rw [e1] at e2
        exact Except.ok.inj e2
      rw [hv w ha, hv h hb]
      decide
    rcases this with rfl | rfl
    · refine ⟨by unfold Ascii; decide +kernel, ?_⟩
      rw [show instructions (bytes "P2 2 2 5 5 0 5 0") = bytes "P2" :: bytes "2" :: bytes "2" :: bytes "5" ::
        [bytes "5", bytes "0", bytes "5", bytes "0"] by decide +kernel]
      exact key _
    · refine ⟨by unfold Ascii; decide +kernel, ?_⟩
      rw [show instructions (bytes "P2 2 2 5 0 0 0 0") = bytes "P2" :: bytes "2" :: bytes "2" :: bytes "5" ::
        [bytes "0", bytes "0", bytes "0", bytes "0"] by decide +kernel]
      exact key _
  · have h3 : (match Par.disparityMap (loopSolver (orderSolver 2 fun _ => [0, 1])) loopGraph with
        | .ok _ => false
        | .error e => e == .nonterm) = true := by decide +kernel
    have h4 : Par.disparityMap (loopSolver solve) loopGraph = .error .nonterm := by
      rcases refines_disparityMap href loopGraph with ⟨e, rfl, h⟩ | h
      · rw [h] at h3; cases h3
      · rw [h]
        split at h3
        · cases h3
        · rename_i e he
          rw [he]
          rw [beq_iff_eq] at h3
          rw [h3]
    have h5 : (readGraph (loopWorld (loopSolver solve)) loopOptions (bytes "l") (bytes "r")).toOption = some loopGraph := by
      show (readGraph (loopWorld fun _ => solveCsp 1) loopOptions (bytes "l") (bytes "r")).toOption = some loopGraph
      decide +kernel
    unfold program
    dsimp only [chooseParallelism, loopOptions]
    change handle [] (compute (loopWorld (loopSolver solve)) loopOptions _ (bytes "l") (bytes "r") (bytes "o")) = _
    unfold compute
    cases hr : readGraph (loopWorld (loopSolver solve)) loopOptions (bytes "l") (bytes "r") with
    | error e => rw [hr] at h5; cases h5
    | ok g =>
      rw [hr] at h5
      cases h5
      rw [bind_ok, ← disparityMap_labeled]
      show handle [] (Par.disparityMap (loopSolver solve) loopGraph >>= _) = _
      rw [h4]
      rfl

example : smallWorld.Reasonable 1 ∧ smallWorld.Runs 64 1 ∧ smallWorld.CpuOnly := ⟨⟨by decide, by decide, by decide, fun _ => rfl⟩, .inr rfl, rfl, rfl⟩

end SP
