import Verif.Props.CudaLimits
/-!
# Properties C88, C89: failures of OpenCL and of writing
-/
namespace SP
open FloatOps Gpu
variable {F D : Type} [FloatOps F] [FloatOps D] {world : World F} {conv : F → D} {launch : Launcher D}
  {failure : ConstraintGraph F → Option String}

/-! ## C88: OpenCL -/

theorem chooseParallelism_openCL {find : ConstraintGraph F → M (ConstraintGraph F × Bool)} (hcl : world.openCL = some find)
    {p : Option Text} {out : List Message} {f : Labeler F} (hc : chooseParallelism world p = some (out, f)) (hm : .openCL ∈ out) :
    out = [.openCL] ∧ f = (fun _ => find) ∧
    ∀ find', chooseParallelism { world with openCL := some find' } p = some (out, fun _ => find') := by
  unfold chooseParallelism at hc ⊢
  rw [hcl] at hc
  split at hc
  · cases hc; simp at hm
  · dsimp only at hc ⊢
    repeat' split at hc
    all_goals first
      | (cases hc; exact ⟨rfl, rfl, fun find' => by simp_all⟩)
      | (cases hc; simp at hm; done)
      | cases hc

/-- An exception is reported. -/
theorem handle_exception {ms : List Message} {e : Err} {out : Outcome} (h : handle ms (.error e) = .ok out) (he : e ≠ .exit) :
    out.written = none ∧ ∃ message, out.err = [message] := by
  rcases handle_cases ms (.error e) with ⟨w, h4, h3⟩ | ⟨e, msg, -, h4, h3⟩ | ⟨e, -, h3⟩ | ⟨h4, h3⟩ | ⟨h4, -⟩
  · cases h4
  · rw [h] at h3; cases h3; exact ⟨rfl, _, rfl⟩
  · rw [h] at h3; cases h3; exact ⟨rfl, _, rfl⟩
  · rw [h] at h3; cases h3
  · cases h4; exact absurd rfl he

/-- **C88**. If OpenCL is used and fails in any way and at any moment, then the program prints one message to the error stream, ends with
status 1 and writes nothing; if it does not fail, then everything is as without failures. So if it fails for all graphs, nothing is
written and there is a message. -/
theorem C88_opencl_failure_reported [LawfulFloat F] {B : Nat} {jobs : UInt64} (hw : world.Reasonable jobs) (hs : world.solve.Possible B jobs)
    (hcl : world.openCL = some (findLabelingClFailing failure conv launch)) (cl : CommandLine)
    (out : Outcome) (h : program world cl = .ok out) (huse : .openCL ∈ out.out) :
    (program { world with openCL := some (findLabelingCl conv launch) } cl = .ok out ∨
      out.exit = 1 ∧ out.written = none ∧ ∃ what, out.err = [.unexpected what] ∧ ∃ c, failure c = some what) ∧
    ((∀ c, failure c = none) → program { world with openCL := some (findLabelingCl conv launch) } cl = .ok out) ∧
    ((∀ c, failure c ≠ none) → out.written = none ∧ ∃ message, out.err = [message]) := by
  rcases program_cases world cl with ⟨e, h1, h2⟩ | ⟨h1, -⟩ | ⟨h1, -⟩ | ⟨o, l, r, p, ms, f, hcmd, hl, hr, hp, hc, h1⟩
  · rw [h] at h1; cases h1; cases huse
  · rw [h] at h1; cases h1; cases huse
  · rw [h] at h1; cases h1; cases huse
  rw [h] at h1
  have hms : .openCL ∈ ms := by
    rcases handle_cases ms (compute world o f l r p) with ⟨w, h4, h3⟩ | ⟨e, msg, -, h4, h3⟩ | ⟨e, -, h3⟩ | ⟨h4, h3⟩ | ⟨-, h3⟩
    · rw [h3] at h1; cases h1; exact huse
    · rw [h3] at h1; cases h1; exact huse
    · rw [h3] at h1; cases h1; exact huse
    · rcases h4 with h4 | h4 <;> rw [h4] at h1 <;> cases h1
    · rw [h3] at h1; cases h1; simpa using huse
  obtain ⟨rfl, rfl, k⟩ := chooseParallelism_openCL hcl hc hms
  have hprog : program { world with openCL := some (findLabelingCl conv launch) } cl =
      handle [.openCL] (compute { world with openCL := some (findLabelingCl conv launch) } o (fun _ => findLabelingCl conv launch) l r p) := by
    subst hcmd
    unfold program
    simp only [hl, hr, hp, k]
  rw [hprog]
  have hread : readGraph { world with openCL := some (findLabelingCl conv launch) } o l r = readGraph world o l r := rfl
  unfold compute at h1 ⊢
  rw [hread]
  cases hg : readGraph world o l r with
  | error e =>
    rw [hg] at h1
    exact ⟨.inl h1.symm, fun _ => h1.symm, fun _ => handle_exception h1.symm fun he => readGraph_noExit hw (he ▸ hg)⟩
  | ok g =>
    rw [hg, bind_ok] at h1
    rw [bind_ok]
    obtain ⟨left, right, levels, cleanness, smoothness, -, -, -, -, -, ha, hls, hrs, hsm, rfl⟩ := readGraph_ok hw hg
    obtain ⟨f1, f2, f3⟩ := fresh_limits hw ha hls hrs hsm
    have hsolved := par_solvedGraph hs f1 hw.jobs_pos f2
    unfold Par.labeledMap at h1 ⊢
    dsimp only at h1 ⊢
    cases hsg : Par.solvedGraph world.solve (freshGraph left right levels cleanness smoothness) with
    | error e =>
      rw [hsg] at h1 hsolved
      refine ⟨.inl h1.symm, fun _ => h1.symm, fun _ => handle_exception h1.symm ?_⟩
      rcases hsolved with hh | ⟨what, hh⟩
      · rw [hh.1]; simp
      · rw [hh]; simp
    | ok c =>
      obtain ⟨c, calls⟩ := c
      rw [hsg, bind_ok] at h1
      rw [bind_ok]
      dsimp only at h1 ⊢
      cases hfail : failure c with
      | none =>
        have : findLabelingClFailing failure conv launch c = findLabelingCl conv launch c := by
          unfold findLabelingClFailing
          rw [hfail]
        rw [this] at h1
        exact ⟨.inl h1.symm, fun _ => h1.symm, fun hall => absurd hfail (hall c)⟩
      | some what =>
        have : findLabelingClFailing failure conv launch c = .error (.exc (.other what)) := by
          unfold findLabelingClFailing
          rw [hfail]
        rw [this] at h1
        have h1 : Except.ok out = Except.ok { exit := 1, out := [.openCL], err := [.unexpected what] } := h1
        cases h1
        refine ⟨.inr ⟨rfl, rfl, what, rfl, c, hfail⟩, fun hall => ?_, fun _ => ⟨rfl, _, rfl⟩⟩
        rw [hall c] at hfail
        cases hfail

/-- OpenCL always fails. -/
def deadWorld (solve : Solver Int) : World Int :=
  { smallWorld with solve := solve, openCL := some (findLabelingClFailing (fun _ => some "No device found") id fun _ d => .ok d) }

/-- The assumptions of C88, with a failure. -/
example : ∃ solve : Solver Int, solve.Possible 64 1 ∧ (deadWorld solve).Reasonable 1 ∧
    program (deadWorld solve) (.parsed { smallOptions "o" with parallel := some (bytes "cl") }) =
      .ok { exit := 1, out := [.openCL], err := [.unexpected "No device found"] } := by
  obtain ⟨solve, h1, h2⟩ := seqSolver Int 1
  refine ⟨solve, h1, ⟨show 100 < 2147483648 by decide, by decide, by decide, fun _ => rfl⟩, ?_⟩
  have h3 : (readGraph smallWorld cudaOptions (bytes "l") (bytes "r")).toOption = some narrowGraph := by decide +kernel
  have h4 : (solvedGraph 1 narrowGraph).toOption.isSome = true := by decide +kernel
  obtain ⟨c, hc⟩ := Option.isSome_iff_exists.1 h4
  obtain ⟨n, hn⟩ := h2 _ _ hc
  have hg : readGraph smallWorld cudaOptions (bytes "l") (bytes "r") = .ok narrowGraph := by
    cases hr : readGraph smallWorld cudaOptions (bytes "l") (bytes "r") with
    | error e => rw [hr] at h3; cases h3
    | ok g => rw [hr] at h3; cases h3; rfl
  have hp : program (deadWorld solve) (.parsed { smallOptions "o" with parallel := some (bytes "cl") }) =
    handle [.openCL] (compute (deadWorld solve) { smallOptions "o" with parallel := some (bytes "cl") }
      (fun _ => findLabelingClFailing (fun _ => some "No device found") id fun _ d => .ok d) (bytes "l") (bytes "r") (bytes "o")) := rfl
  rw [hp]
  unfold compute
  rw [show readGraph (deadWorld solve) { smallOptions "o" with parallel := some (bytes "cl") } (bytes "l") (bytes "r") = .ok narrowGraph from hg,
    bind_ok]
  unfold Par.labeledMap
  rw [show Par.solvedGraph (deadWorld solve).solve narrowGraph = .ok (c, n) from hn]
  rfl

/-! ## C89: writing -/

/-- **C89**, what holds. Full statement: whenever the program ends with status 0 and prints nothing to the error stream, the file contains
the whole map. It is false (`C89_full_device_refuted`): nothing is noticed if the device is full. What holds: the file contains a
beginning of the map, and the whole of it if there is room. -/
theorem C89_whole_file_partial (world : World F) (cl : CommandLine) (out : Outcome) (h : program world cl = .ok out) (path text : Text)
    (hwr : out.written = some (path, text)) :
    ∃ image whole, writePgm (some image) = .ok whole ∧ text <+: whole ∧
      ((∀ n, world.room path = some n → whole.length ≤ n) → text = whole) ∧
      (∃ o l r f, cl = .parsed o ∧ o.leftImage = some l ∧ o.rightImage = some r ∧ o.outputImage = some path ∧
        ∃ g, readGraph world o l r = .ok g ∧ Par.labeledMap world.solve f g = .ok image) := by
  rcases program_cases world cl with ⟨e, h1, h2⟩ | ⟨h1, -⟩ | ⟨h1, -⟩ | ⟨o, l, r, p, ms, f, hcl, hl, hr, hp, hc, h1⟩
  · rw [h] at h1; cases h1; cases hwr
  · rw [h] at h1; cases h1; cases hwr
  · rw [h] at h1; cases h1; cases hwr
  rw [h] at h1
  cases hm : compute world o f l r p with
  | error e => rw [hm] at h1; rw [handle_error h1.symm] at hwr; cases hwr
  | ok w =>
    rw [hm] at h1
    cases h1
    simp only at hwr
    subst hwr
    unfold compute at hm
    obtain ⟨g, hg, hm⟩ := bind_eq_ok hm
    obtain ⟨im, him, hm⟩ := bind_eq_ok hm
    obtain ⟨tx, htx, hm⟩ := bind_eq_ok hm
    refine ⟨im, tx, htx, ?_⟩
    cases hwp : world.writable p
    · rw [hwp] at hm; cases hm
    · rw [hwp] at hm
      cases hm
      refine ⟨?_, fun hroom => ?_, o, l, r, f, hcl, hl, hr, hp, g, hg, him⟩
      · unfold World.stored
        split
        · exact List.prefix_refl _
        · exact List.take_prefix _ _
      · unfold World.stored
        split
        · rfl
        · rename_i n hn
          exact List.take_of_length_le (hroom n hn)

/-- **C89** is false: there is room for five characters. Status 0, nothing in the error stream. -/
theorem C89_full_device_refuted :
    program { smallWorld with room := fun _ => some 5 } (.parsed (smallOptions "o")) =
      .ok { exit := 0, out := [.openMP], written := some (bytes "o", bytes "P2\n3 ") } ∧
    program smallWorld (.parsed (smallOptions "o")) =
      .ok { exit := 0, out := [.openMP], written := some (bytes "o", bytes "P2\n3 2\n2\n1 1 0\n1 1 0\n") } := by decide +kernel

end SP
