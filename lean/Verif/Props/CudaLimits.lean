import Verif.Props.Program
import Verif.Props.GpuRefuted
/-!
# Property C87: images too large for a CUDA device
-/
namespace SP
open FloatOps Gpu
variable {F D : Type} [FloatOps F] [FloatOps D] [LawfulFloat F] {world : World F} {conv : F → D} {limits : Limits}
  {launch : Launcher D} {B : Nat} {jobs : UInt64}

/-- The image has no more rows than a block may have threads, and no more columns than there may be blocks. -/
def Gpu.Limits.Allow (limits : Limits) (image : Image) : Prop :=
  image.height.toNat ≤ limits.threads ∧ image.width.toNat ≤ limits.blocks

/-- The graph being labeled. -/
theorem labeledMap_limits {solve : Solver F} (hs : solve.Possible B jobs) {g : DisparityGraph F} (hg : g.Fresh) (hj : 0 < jobs.toNat)
    (hfit : g.h + jobs.toNat ≤ 18446744073709551616) :
    (limits.Allow g.right → Par.labeledMap solve (fun _ => findLabelingCudaLimited limits conv launch) g =
      Par.labeledMap solve (fun _ => findLabelingCuda conv launch) g) ∧
    (¬ limits.Allow g.right → (∀ r, Par.solvedGraph solve g = .ok r →
      Par.labeledMap solve (fun _ => findLabelingCudaLimited limits conv launch) g = .error .exit) ∧ Res (fun e => e = .exit ∨ Hangs solve B jobs e ∨ ∃ what, e = .exc (.logicError what))
      (Par.labeledMap solve (fun _ => findLabelingCudaLimited limits conv launch) g) fun _ => False) := by
  have h := par_solvedGraph hs hg hj hfit
  unfold Par.labeledMap
  cases hm : Par.solvedGraph solve g with
  | error e =>
    rw [hm] at h
    exact ⟨fun _ => rfl, fun _ => ⟨nofun, .inr h⟩⟩
  | ok r =>
    rw [hm] at h
    obtain ⟨c, calls⟩ := r
    obtain ⟨t, h, -⟩ := h
    rw [bind_ok, bind_ok]
    dsimp only at h ⊢
    have he : limits.Fits c ↔ limits.Allow g.right := by
      unfold Gpu.Limits.Fits Gpu.Limits.Allow
      rw [h.graph_eq hg]
    constructor
    · intro ha
      rw [findLabelingCudaLimited_fits (he.2 ha)]
    · intro ha
      rw [findLabelingCudaLimited_exit h.valid h.proper (he.not.2 ha)]
      exact ⟨fun _ _ => rfl, .inl rfl⟩

omit [LawfulFloat F] in
theorem chooseParallelism_cuda {find : ConstraintGraph F → M (ConstraintGraph F × Bool)} (hcuda : world.cuda = some find)
    {p : Option Text} {out : List Message} {f : Labeler F} (hc : chooseParallelism world p = some (out, f)) :
    (.cuda ∈ out → out = [.cuda] ∧ f = fun _ => find) ∧
    (.cuda ∈ out → ∀ find', chooseParallelism { world with cuda := some find' } p = some (out, fun _ => find')) := by
  unfold chooseParallelism at hc ⊢
  rw [hcuda] at hc
  split at hc
  · cases hc; exact ⟨fun h => by simp at h, fun h => by simp at h⟩
  · dsimp only at hc ⊢
    repeat' split at hc
    all_goals first
      | (cases hc; exact ⟨fun _ => ⟨rfl, rfl⟩, fun _ find' => by simp_all⟩)
      | (cases hc; exact ⟨fun h => by simp at h, fun h => by simp at h⟩)
      | cases hc

theorem handle_error {ms : List Message} {e : Err} {out : Outcome} (h : handle ms (.error e) = .ok out) : out.written = none := by
  rcases handle_cases ms (.error e) with ⟨w, h4, h3⟩ | ⟨e, msg, -, h4, h3⟩ | ⟨e, -, h3⟩ | ⟨h4, h3⟩ | ⟨-, h3⟩
  · cases h4
  · rw [h] at h3; cases h3; rfl
  · rw [h] at h3; cases h3; rfl
  · rw [h] at h3; cases h3
  · rw [h] at h3; cases h3; rfl

/-- **C87**, what holds. Full statement: if the image is larger than CUDA allows (a block of threads is launched for each column, with a
thread for each row), then the program says so in the error stream, ends with status 1 and writes nothing. It is false
(`C87_too_large_refuted`): the message is printed to the standard output and the status is 0. What holds: nothing is written for such
images, and limits do not matter for other images. -/
theorem C87_too_large_partial (hw : world.Reasonable jobs) (hs : world.solve.Possible B jobs)
    (hcuda : world.cuda = some (findLabelingCudaLimited limits conv launch)) (cl : CommandLine) (out : Outcome)
    (h : program world cl = .ok out) (huse : .cuda ∈ out.out) :
    ∃ o r, cl = .parsed o ∧ o.rightImage = some r ∧ ∀ image, readImage world r = .ok image →
      (limits.Allow image → program { world with cuda := some (findLabelingCuda conv launch) } cl = .ok out) ∧
      (¬ limits.Allow image → out.written = none) := by
  rcases program_cases world cl with ⟨e, h1, h2⟩ | ⟨h1, -⟩ | ⟨h1, -⟩ | ⟨o, l, r, p, ms, f, hcl, hl, hr, hp, hc, h1⟩
  · rw [h] at h1; cases h1; cases huse
  · rw [h] at h1; cases h1; cases huse
  · rw [h] at h1; cases h1; cases huse
  rw [h] at h1
  have hms : .cuda ∈ ms := by
    rcases handle_cases ms (compute world o f l r p) with ⟨w, h4, h3⟩ | ⟨e, msg, -, h4, h3⟩ | ⟨e, -, h3⟩ | ⟨h4, h3⟩ | ⟨-, h3⟩
    · rw [h3] at h1; cases h1; exact huse
    · rw [h3] at h1; cases h1; exact huse
    · rw [h3] at h1; cases h1; exact huse
    · rcases h4 with h4 | h4 <;> rw [h4] at h1 <;> cases h1
    · rw [h3] at h1; cases h1; simpa using huse
  obtain ⟨k1, k2⟩ := chooseParallelism_cuda hcuda hc
  obtain ⟨rfl, rfl⟩ := k1 hms
  refine ⟨o, r, hcl, hr, fun image him => ?_⟩
  have hprog : program { world with cuda := some (findLabelingCuda conv launch) } cl =
      handle [.cuda] (compute { world with cuda := some (findLabelingCuda conv launch) } o (fun _ => findLabelingCuda conv launch) l r p) := by
    subst hcl
    unfold program
    simp only [hl, hr, hp, k2 hms]
  rw [hprog]
  unfold compute at h1 ⊢
  have hread : readGraph { world with cuda := some (findLabelingCuda conv launch) } o l r = readGraph world o l r := rfl
  rw [hread]
  cases hg : readGraph world o l r with
  | error e =>
    rw [hg] at h1
    exact ⟨fun _ => h1.symm, fun _ => handle_error h1.symm⟩
  | ok g =>
    obtain ⟨left, right, levels, cleanness, smoothness, -, k2, -, -, -, ha, hls, hrs, hsm, rfl⟩ := readGraph_ok hw hg
    obtain ⟨f1, f2, f3⟩ := fresh_limits hw ha hls hrs hsm
    rw [him] at k2
    cases k2
    rw [hg, bind_ok] at h1
    rw [bind_ok]
    obtain ⟨m1, m2⟩ := labeledMap_limits (limits := limits) (conv := conv) (launch := launch) hs f1 hw.jobs_pos f2
    refine ⟨fun hal => ?_, fun hal => ?_⟩
    · rw [m1 hal] at h1
      exact h1.symm
    · have := (m2 hal).2
      cases hm : Par.labeledMap world.solve (fun _ => findLabelingCudaLimited limits conv launch)
          (freshGraph left image levels cleanness smoothness) with
      | ok im => rw [hm] at this; exact this.elim
      | error e =>
        rw [hm] at h1
        exact handle_error h1.symm

/-- The world of `smallWorld` with a CUDA device that allows one thread in a block. -/
def narrowWorld (solve : Solver Int) (launch : Launcher Int) : World Int :=
  { smallWorld with solve := solve, cuda := some (findLabelingCudaLimited ⟨1, 65535⟩ id launch) }

/-- Options to use CUDA. -/
def cudaOptions : Options := { smallOptions "o" with parallel := some (bytes "CUDA") }

/-- The graph of these images. -/
def narrowGraph : DisparityGraph Int := freshGraph ⟨3, 2, 3, #[1, 2, 3, 0, 1, 2]⟩ ⟨3, 2, 3, #[2, 3, 3, 1, 2, 2]⟩ 2 1 1

/-- **C87** is false: an image of two rows and a device that allows one thread in a block. The status is 0 and nothing is printed to the
error stream, whatever launches do. -/
theorem C87_too_large_refuted (launch : Launcher Int) : ∃ solve : Solver Int, solve.Possible 64 1 ∧
    program (narrowWorld solve launch) (.parsed cudaOptions) = .ok { exit := 0, out := [.cuda, .cudaFailure] } := by
  obtain ⟨solve, h1, h2⟩ := seqSolver Int 1
  refine ⟨solve, h1, ?_⟩
  have h3 : (readGraph smallWorld cudaOptions (bytes "l") (bytes "r")).toOption = some narrowGraph := by decide +kernel
  have h4 : (solvedGraph 1 narrowGraph).toOption.isSome = true := by decide +kernel
  obtain ⟨c, hc⟩ := Option.isSome_iff_exists.1 h4
  obtain ⟨n, hn⟩ := h2 _ _ hc
  have hw : smallWorld.Reasonable 1 := ⟨by decide, by decide, by decide, fun _ => rfl⟩
  have hg : readGraph smallWorld cudaOptions (bytes "l") (bytes "r") = .ok narrowGraph := by
    cases hr : readGraph smallWorld cudaOptions (bytes "l") (bytes "r") with
    | error e => rw [hr] at h3; cases h3
    | ok g => rw [hr] at h3; cases h3; rfl
  obtain ⟨left, right, levels, cleanness, smoothness, -, -, -, -, -, ha, hls, hrs, hsm, he⟩ := readGraph_ok hw hg
  obtain ⟨f1, f2, f3⟩ := fresh_limits hw ha hls hrs hsm
  rw [← he] at f1 f2
  have hm := ((labeledMap_limits (limits := ⟨1, 65535⟩) (conv := id) (launch := launch) h1 f1 (by decide) f2).2
    (by unfold Gpu.Limits.Allow; decide)).1 _ hn
  have hp : program (narrowWorld solve launch) (.parsed cudaOptions) = handle [.cuda] (compute (narrowWorld solve launch) cudaOptions
    (fun _ => findLabelingCudaLimited ⟨1, 65535⟩ id launch) (bytes "l") (bytes "r") (bytes "o")) := rfl
  rw [hp]
  unfold compute
  rw [show readGraph (narrowWorld solve launch) cudaOptions (bytes "l") (bytes "r") = .ok narrowGraph from hg, bind_ok]
  rw [show Par.labeledMap (narrowWorld solve launch).solve _ narrowGraph = .error .exit from hm]
  rfl

/-- **C63** is false for this reason, too: nothing is written and nothing is printed to the error stream. -/
theorem C63_cuda_failure_refuted (launch : Launcher Int) : ∃ solve : Solver Int, solve.Possible 64 1 ∧
    ∃ o, program (narrowWorld solve launch) (.parsed cudaOptions) = .ok o ∧ o.err = [] ∧ o.written = none := by
  obtain ⟨solve, h1, h2⟩ := C87_too_large_refuted launch
  exact ⟨solve, h1, _, h2, rfl, rfl⟩

/-- The assumptions of `C87_too_large_partial`. -/
example (launch : Launcher Int) : ∃ (solve : Solver Int) (out : Outcome), (narrowWorld solve launch).Reasonable 1 ∧ solve.Possible 64 1 ∧
    program (narrowWorld solve launch) (.parsed cudaOptions) = .ok out ∧ .cuda ∈ out.out := by
  obtain ⟨solve, h1, h2⟩ := C87_too_large_refuted launch
  exact ⟨solve, _, ⟨show 100 < 2147483648 by decide, by decide, by decide, fun _ => rfl⟩, h1, h2, by decide⟩

end SP
