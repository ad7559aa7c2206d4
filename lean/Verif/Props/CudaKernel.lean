import Verif.Lemmas.CudaKernel
import Verif.Props.FloatDevice
/-!
# Property C94: the CUDA version with 32-bit numbers
-/
namespace SP
open FloatOps Gpu
set_option maxRecDepth 1000000

/-! ## The program -/
section
variable {F D : Type} [FloatOps F] [FloatOps D] {B : Nat} {jobs : UInt64} {world : World F} {conv : F → D} {allowed : (Nat → Nat) → Prop}

/-- As `World.Devices`, but kernels of CUDA compute with 32 bits. -/
structure World.Devices32 (world : World F) (conv : F → D) (allowed : (Nat → Nat) → Prop) : Prop where
  openCL : ∀ f, world.openCL = some f → ∃ launch : Launcher D, launch.Possible cspIteration allowed ∧
    (f = findLabelingCl conv launch ∨ ∃ failure, f = findLabelingClFailing failure conv launch)
  cuda : ∀ f, world.cuda = some f → ∃ launch : Launcher D, launch.Possible Cuda.cspIteration allowed ∧
    (f = Cuda.findLabeling conv launch ∨ ∃ limits, f = Cuda.findLabelingLimited limits conv launch)

/-- The number of elements of the reparametrization is at most `2^32`. -/
def World.Fits32 (world : World F) (cl : CommandLine) : Prop :=
  ∀ o l left levels, cl = .parsed o → o.leftImage = some l → readImage world l = .ok left → levelsOption left o.disparityLevels = .ok levels →
    left.width.toNat * left.height.toNat * 4 * levels.toNat ≤ 2 ^ 32

/-- Files have no intensities of more than 17 bits. -/
theorem readImage_intensities {path : Text} {im : Image} (h : readImage world path = .ok im) (hm : im.Meaningful) (i : Nat) :
    (im.data.getD i 0).toNat < 2 ^ 31 := by
  obtain ⟨text, -, ⟨a, b, c, ds, -, -, -, -, hmax, -⟩, -⟩ := readImage_ok h
  have h1 : im.maxValue.toNat ≤ 65536 := UInt64.le_iff_toNat_le.1 hmax
  rw [Array.getD_eq_getD_getElem?]
  cases hv : im.data[i]? with
  | none => decide
  | some v =>
    obtain ⟨hi, rfl⟩ := Array.getElem?_eq_some_iff.1 hv
    have := hm.2.2.2 _ (Array.getElem_mem hi)
    show (im.data[i]).toNat < _
    omega

/-- The graph for which a labeling is looked for; the workers are executed concurrently or one after another. -/
theorem solvedGraph_runs (hruns : world.Runs B jobs) {g : DisparityGraph F} (hg : g.Valid) (hj : 0 < jobs.toNat)
    (hfit : g.h + jobs.toNat ≤ 18446744073709551616) {c : ConstraintGraph F} {n : Nat}
    (h : Par.solvedGraph world.solve g = .ok (c, n)) : c.Valid ∧ c.Proper ∧ c.disparityGraph = g := by
  rcases hruns with hs | hs
  · exact solvedGraph_proper hs hg hj hfit h
  · obtain ⟨solve, h1, h2⟩ := Solver.Possible.seq (F := F) 64 jobs
    rw [hs] at h
    rcases refines_solvedGraph h2 g with ⟨e, -, h'⟩ | h'
    · rw [h] at h'; cases h'
    · exact solvedGraph_proper h1 hg hj hfit (h'.trans h)

/-- A device with nothing. -/
def Device.empty (D : Type) [FloatOps D] : Device D :=
  let g : DisparityGraph D := freshGraph ⟨0, 0, 0, #[]⟩ ⟨0, 0, 0, #[]⟩ 0 zero zero
  ⟨⟨g, ⟨g, #[], #[]⟩, #[], zero⟩, fun _ => false⟩

/-- What is chosen in worlds that differ in CUDA. -/
theorem chooseParallelism_other {find find' : ConstraintGraph F → M (ConstraintGraph F × Bool)} (hcuda : world.cuda = some find) (p : Option Text) :
    chooseParallelism { world with cuda := some find' } p = chooseParallelism world p ∨
    (chooseParallelism world p = some ([.cuda], fun _ => find) ∧
      chooseParallelism { world with cuda := some find' } p = some ([.cuda], fun _ => find')) := by
  unfold chooseParallelism
  rw [hcuda]
  cases p with
  | none => exact .inl rfl
  | some value =>
    dsimp only
    by_cases hn : value.map toLower = nameCuda
    · rw [if_pos hn, if_pos hn]
      cases world.openCL with
      | none => exact .inr ⟨rfl, rfl⟩
      | some f =>
        dsimp only
        split
        · exact .inl rfl
        · exact .inr ⟨rfl, rfl⟩
    · rw [if_neg hn, if_neg hn]
      exact .inl rfl

/-- **C94**. If the number of elements of the reparametrization is at most `2^32`, then the program whose CUDA kernels compute with 32-bit
numbers does the same as the program whose kernels compute with 64-bit ones, with launches that are possible for those kernels. -/
theorem C94_same_program (hw : world.Reasonable jobs) (hruns : world.Runs B jobs) (hdev : world.Devices32 conv allowed) (cl : CommandLine)
    (hfit : world.Fits32 cl) :
    ∃ cuda', (cuda'.isSome = world.cuda.isSome) ∧ { world with cuda := cuda' }.Devices conv allowed ∧
      program { world with cuda := cuda' } cl = program world cl := by
  cases hcuda : world.cuda with
  | none =>
    refine ⟨none, rfl, ⟨hdev.openCL, fun f hf => by cases hf⟩, ?_⟩
    have : { world with cuda := none } = world := by rw [← hcuda]
    rw [this]
  | some find =>
    have key : ∃ find', (∃ launch : Launcher D, launch.Possible cspIterationCuda allowed ∧
        (find' = findLabelingCuda conv launch ∨ ∃ limits, find' = findLabelingCudaLimited limits conv launch)) ∧
        ∀ c : ConstraintGraph F, c.Valid → c.Proper → c.disparityGraph.Fits32 → find' c = find c := by
      obtain ⟨launch, hl, hf⟩ := hdev.cuda find hcuda
      have hg := hl.some_group (Device.empty D)
      rcases hf with rfl | ⟨limits, rfl⟩
      · exact ⟨_, ⟨_, Launcher.widen_possible hl hg, .inl rfl⟩, fun c h1 h2 h3 => (findLabeling_cuda conv hl hg h1 h2 h3).symm⟩
      · exact ⟨_, ⟨_, Launcher.widen_possible hl hg, .inr ⟨limits, rfl⟩⟩,
          fun c h1 h2 h3 => (findLabelingLimited_cuda limits conv hl hg h1 h2 h3).symm⟩
    obtain ⟨find', hpos, hsame⟩ := key
    refine ⟨some find', rfl, ⟨hdev.openCL, fun f hf => by cases hf; exact hpos⟩, ?_⟩
    cases cl with
    | repeated => rfl
    | wrong => rfl
    | parsed o =>
      unfold program
      dsimp only
      cases hout : o.outputImage <;> cases hleft : o.leftImage <;> cases hright : o.rightImage <;> try rfl
      rename_i output l r
      dsimp only
      rcases chooseParallelism_other (find' := find') hcuda o.parallel with h | ⟨h1, h2⟩
      · rw [h]
        rfl
      · rw [h1, h2]
        refine congrArg (handle [.cuda]) ?_
        unfold compute
        show (readGraph world o l r >>= _) = (readGraph world o l r >>= _)
        cases hg : readGraph world o l r with
        | error e => rfl
        | ok g =>
          obtain ⟨left, right, levels, cleanness, smoothness, k1, k2, k3, -, -, ha, hls, hrs, hsm, rfl⟩ := readGraph_ok hw hg
          rw [bind_ok, bind_ok]
          refine congrArg (· >>= _) ?_
          show Par.labeledMap world.solve (fun _ => find') _ = Par.labeledMap world.solve (fun _ => find) _
          unfold Par.labeledMap
          cases hsg : Par.solvedGraph world.solve (freshGraph left right levels cleanness smoothness) with
          | error e => rfl
          | ok s =>
            obtain ⟨c, n⟩ := s
            rw [bind_ok, bind_ok]
            have hhj : (freshGraph left right levels cleanness smoothness).h + jobs.toNat ≤ 18446744073709551616 := by
              have hj := hw.jobs_small
              have hpos : 0 < left.width.toNat := by have := ha.2.2.1; have := ha.2.2.2.1; omega
              have hsz := hls.size
              have : left.height.toNat ≤ left.data.size := by rw [hsz]; exact Nat.le_mul_of_pos_left _ hpos
              have e : (freshGraph left right levels cleanness smoothness).h = left.height.toNat := by
                show right.height.toNat = _
                rw [ha.2.2.2.2.2.1]
              omega
            obtain ⟨c1, c2, c3⟩ := solvedGraph_runs hruns (freshGraph_valid hls hrs ha (accepted_fits ha hls hsm)).1 hw.jobs_pos hhj hsg
            refine congrArg (· >>= _) (hsame c c1 c2 ?_)
            rw [c3]
            refine ⟨?_, readImage_intensities k1 ha.1, readImage_intensities k2 ha.2.1⟩
            have := hfit o l left levels rfl hleft k1 k3
            show right.width.toNat * right.height.toNat * 4 * levels.toNat ≤ 2 ^ 32
            rw [← ha.2.2.2.2.1, ← ha.2.2.2.2.2.1]
            exact this

end

/-! ## What follows -/

section
variable {B : Nat} {jobs : UInt64} {world : World Double} {allowed : (Nat → Nat) → Prop}

/-- C93 for kernels of CUDA that compute with 32 bits: if weights multiplied by squares of differences of intensities or levels are at most
`2^24`, then the file written is the best map in exact arithmetic. -/
theorem C94_exact (hw : world.Reasonable jobs) (hruns : world.Runs B jobs)
    (hdev : world.Devices32 (Ieee.convert : Double → Single) allowed) (cl : CommandLine) (hfit : world.Fits32 cl)
    (hr : ∀ o l r, cl = .parsed o → o.leftImage = some l → o.rightImage = some r → world.InRange 24 o l r) (out : Outcome)
    (h : program world cl = .ok out) (path text : Text) (hwr : out.written = some (path, text)) : world.Result ℚ cl out path text := by
  obtain ⟨cuda', -, h1, h2⟩ := C94_same_program hw hruns hdev cl hfit
  exact C93_float_device_partial (world := { world with cuda := cuda' }) ⟨hw.memory, hw.jobs_pos, hw.jobs_small, hw.room⟩ hruns h1 cl hr out
    (h2.trans h) path text hwr

/-- With kernels of CUDA that compute with 32 bits the program ends in no other ways than with 64 bits (`C91_program_safe_partial`). -/
theorem C94_outcomes (hw : world.Reasonable jobs) (hs : world.solve.Possible B jobs)
    (hdev : world.Devices32 (Ieee.convert : Double → Single) allowed)
    (hfiles : ∀ path text, world.file path = some text → HarmlessFile text) (cl : CommandLine) (hfit : world.Fits32 cl) :
    (Ok (program world cl) fun out => out.exit = 0 ∨ out.exit = 1) ∨
    (program world cl = .error .nonterm ∧ B ≠ 1 ∧ jobs ≠ 1) ∨
    (program world cl = .error .ub ∧ ∃ kernel : Kernel Single, IsKernel kernel ∧ Misses kernel allowed .ub) := by
  obtain ⟨cuda', -, h1, h2⟩ := C94_same_program hw (.inl hs) hdev cl hfit
  rw [← h2]
  exact C91_program_safe_partial (world := { world with cuda := cuda' }) ⟨hw.memory, hw.jobs_pos, hw.jobs_small, hw.room⟩ hs h1 hfiles cl

end

/-! ## Non-vacuity -/

/-- The program with CUDA. -/
def cudaWorld (find : ConstraintGraph Double → M (ConstraintGraph Double × Bool)) : World Double :=
  { floatWorld (fun _ _ => .error .ub) with openCL := none, cuda := some find }

theorem cuda_small : program (cudaWorld (Cuda.findLabeling (Ieee.convert : Double → Single) (computed Cuda.cspIteration id floatTurns)))
    (.parsed (weighted none none (some "CUDA"))) =
    .ok { exit := 0, out := [.cuda], written := some (bytes "o", bytes "P2\n4 1\n3\n0 1 0 0\n") } := by decide +kernel

theorem cudaWorld_fits (find : ConstraintGraph Double → M (ConstraintGraph Double × Bool)) (p : Option String) :
    (cudaWorld find).Fits32 (.parsed (weighted none none p)) := by
  intro o l left levels ho hl h1 h2
  cases ho
  cases hl
  have e := (floatWorld_images fun _ _ => .error .ub).1
  rw [show readImage (cudaWorld find) (bytes "l") = _ from e] at h1
  cases h1
  have h3 : stoul (bytes "3") = .ok 3 := by decide +kernel
  rw [show levelsOption _ (weighted none none p).disparityLevels = stoul (bytes "3") from rfl, h3] at h2
  cases h2
  decide

section
variable {F D : Type} [FloatOps F] [FloatOps D] {l l' : Launcher D}

theorem refines_cuda32 (h : ∀ n d, Refines (· = .nonterm) (l n d) (l' n d)) (conv : F → D) (c : ConstraintGraph F) :
    Refines (· = .nonterm) (Cuda.findLabeling conv l c) (Cuda.findLabeling conv l' c) := by
  unfold Cuda.findLabeling Cuda.cspSolution
  refine .bind (.bind (Refines.cfor fun x s => ?_) fun r => .refl _) fun r => .refl _
  refine .bind (Refines.cfor fun y s => ?_) fun r => .refl _
  exact .bind (.refl _) fun g => .bind (h _ _) fun r => .refl _

end

/-- The program with launches that are computed. -/
theorem cuda_computed {o : Options} (hp : o.parallel = some (bytes "CUDA")) {out : Outcome}
    (h : program (cudaWorld (Cuda.findLabeling (Ieee.convert : Double → Single) (computed Cuda.cspIteration id floatTurns))) (.parsed o) = .ok out) :
    program (cudaWorld (Cuda.findLabeling (Ieee.convert : Double → Single) (.ofTurns Cuda.cspIteration id floatTurns))) (.parsed o) = .ok out := by
  have hn : (bytes "CUDA").map toLower = nameCuda := by decide +kernel
  have e : ∀ find, chooseParallelism (cudaWorld find) o.parallel = some ([.cuda], fun _ => find) := by
    intro find
    unfold chooseParallelism
    rw [hp]
    show (if (bytes "CUDA").map toLower = nameCuda then _ else _) = _
    rw [if_pos hn]
  unfold program at h ⊢
  simp only at h ⊢
  cases ho : o.outputImage <;> cases hl : o.leftImage <;> cases hr : o.rightImage <;> rw [ho, hl, hr] at h <;> try exact h
  rename_i output left right
  simp only [e] at h ⊢
  have hc : Refines (· = .nonterm)
      (compute (cudaWorld (Cuda.findLabeling (Ieee.convert : Double → Single) (.ofTurns Cuda.cspIteration id floatTurns))) o
        (fun _ => Cuda.findLabeling (Ieee.convert : Double → Single) (.ofTurns Cuda.cspIteration id floatTurns)) left right output)
      (compute (cudaWorld (Cuda.findLabeling (Ieee.convert : Double → Single) (computed Cuda.cspIteration id floatTurns))) o
        (fun _ => Cuda.findLabeling (Ieee.convert : Double → Single) (computed Cuda.cspIteration id floatTurns)) left right output) := by
    unfold compute
    refine .bind (.refl _) fun g => .bind ?_ fun im => .refl _
    unfold Par.labeledMap
    exact .bind (.refl _) fun r => .bind (refines_cuda32 computed_refines _ _) fun s => .refl _
  rcases hc with ⟨_, rfl, hc⟩ | hc
  · rw [hc] at h; cases h
  · rw [hc]; exact h

/-- C94: the device writes the exact optimum. -/
example : ∃ world : World Double, world.Reasonable 1 ∧ world.Runs 64 1 ∧ world.Devices32 (Ieee.convert : Double → Single) (· = id) ∧
    world.Fits32 (.parsed (weighted none none (some "CUDA"))) ∧
    ∃ out path text, program world (.parsed (weighted none none (some "CUDA"))) = .ok out ∧ .cuda ∈ out.out ∧ out.written = some (path, text) ∧
      world.Result ℚ (.parsed (weighted none none (some "CUDA"))) out path text := by
  have hw : (cudaWorld (Cuda.findLabeling (Ieee.convert : Double → Single) (.ofTurns Cuda.cspIteration id floatTurns))).Reasonable 1 :=
    ⟨by show 1000 < 2147483648; decide, by decide, by decide, fun _ => rfl⟩
  have hdev : (cudaWorld (Cuda.findLabeling (Ieee.convert : Double → Single) (.ofTurns Cuda.cspIteration id floatTurns))).Devices32
      (Ieee.convert : Double → Single) (· = id) := by
    refine ⟨fun f hf => (by cases hf), fun f hf => ?_⟩
    cases hf
    exact ⟨_, Launcher.ofTurns_possible (allowed := (· = id)) (group := id) rfl _, .inl rfl⟩
  have h := cuda_computed rfl cuda_small
  refine ⟨_, hw, .inr rfl, hdev, cudaWorld_fits _ _, _, _, _, h, by simp, rfl,
    C94_exact (B := 64) hw (.inr rfl) hdev _ (cudaWorld_fits _ _) ?_ _ h _ _ rfl⟩
  have one : ∀ c, weightNumber ((none : Option String).map bytes) = .ok c → c.toNat ≤ 2 ^ 0 := by
    intro c hc
    cases hc
    decide
  exact floatWorld_inRange (fun _ _ => .error .ub) (a := 0) (d := 0) (by norm_num) (by norm_num) one one

end SP
