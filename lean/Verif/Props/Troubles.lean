import Verif.Model.Troubles
import Verif.Props.CudaFailures
import Verif.Props.Memory
import Verif.Props.NearDevice
import Verif.Props.ReadErrors
/-!
# Property C111: whatever fails, no wrong map is written
-/
namespace SP
open FloatOps Gpu

section
variable {F : Type} [FloatOps F] {world : World F} {memory : Memory}

omit [FloatOps F] in
theorem faulty_none (path : Text) : Faulty.readImage none world path = readImage world path := by
  unfold Faulty.readImage readImage
  simp only [Faulty.readPgm_none]
  rfl

/-- Without errors of reading only memory may lack. -/
theorem troubled_limited (cl : CommandLine) : Troubled.program memory none none world cl = Limited.program memory world cl := by
  have hi : ∀ n path, Troubled.readImage memory none world n path = Limited.readImage memory world n path := by
    intro n path
    unfold Troubled.readImage Limited.readImage
    rw [faulty_none]
  have hc : ∀ o label l r output, Troubled.compute memory none none world o label l r output = Limited.compute memory world o label l r output := by
    intro o label l r output
    unfold Troubled.compute Limited.compute Troubled.readGraph Limited.readGraph
    simp only [hi]
  unfold Troubled.program Limited.program
  simp only [hc]
  rfl

theorem troubled_image (fault : Fault) (n : Nat) {path : Text} (hh : ∀ text, world.file path = some text → HarmlessFile text) :
    (∃ im, fault = none ∧ Troubled.readImage memory fault world n path = .ok im) ∨
    ∃ x, Troubled.readImage memory fault world n path = .error (.exc x) := by
  unfold Troubled.readImage
  cases fault with
  | some cut =>
    obtain ⟨x, e⟩ := C107_image cut hh
    exact .inr ⟨x, by rw [e]; rfl⟩
  | none =>
    rw [faulty_none]
    have hsafe := readImage_safe (world := world) hh
    have hexit := readImage_noExit world path
    cases hi : readImage world path with
    | ok im =>
      rw [bind_ok]
      unfold Memory.new
      split
      · exact .inl ⟨im, rfl, rfl⟩
      · exact .inr ⟨_, rfl⟩
    | error e =>
      cases e with
      | ub => exact absurd hi hsafe.1
      | nonterm => exact absurd hi hsafe.2
      | exit => exact absurd hi hexit
      | exc x => exact .inr ⟨x, rfl⟩

/-- After an error of reading nothing is computed. -/
theorem troubled_graph {left right : Fault} (h : left ≠ none ∨ right ≠ none)
    (hfiles : ∀ path text, world.file path = some text → HarmlessFile text) (o : Options) (l r : Text) :
    ∃ x, Troubled.readGraph memory left right world o l r = .error (.exc x) := by
  unfold Troubled.readGraph
  rcases troubled_image (memory := memory) left 0 (hfiles l) with ⟨im, rfl, e⟩ | ⟨x, e⟩
  · rw [e, bind_ok]
    rcases troubled_image (memory := memory) right 1 (hfiles r) with ⟨im', rfl, -⟩ | ⟨x, e'⟩
    · exact absurd h (by simp)
    · exact ⟨x, by rw [e']; rfl⟩
  · exact ⟨x, by rw [e]; rfl⟩

/-- **C111**, errors of reading and allocations: the program does what it does without them, or it writes nothing and prints a message. -/
theorem C111_outcome (hw : world.memory < 2147483648) (hfiles : ∀ path text, world.file path = some text → HarmlessFile text)
    (memory : Memory) (left right : Fault) (cl : CommandLine) :
    Troubled.program memory left right world cl = program world cl ∨
    ∃ out, Troubled.program memory left right world cl = .ok out ∧ out.written = none ∧ out.err ≠ [] ∧ (out.exit = 0 ∨ out.exit = 1) := by
  by_cases h : left ≠ none ∨ right ≠ none
  · unfold Troubled.program
    cases hstart : memory .start 0 with
    | false => exact .inr ⟨_, rfl, rfl, by simp, .inr rfl⟩
    | true =>
      simp only [Bool.not_true, Bool.false_eq_true, if_false]
      cases cl with
      | repeated => exact .inl rfl
      | wrong => exact .inl rfl
      | parsed o =>
        simp only
        rcases ho : o.outputImage with _ | output <;> rcases hl : o.leftImage with _ | l <;> rcases hr : o.rightImage with _ | r <;>
          try exact .inl rfl
        simp only
        cases hc : chooseParallelism world o.parallel with
        | none => exact .inl rfl
        | some q =>
          obtain ⟨out, label⟩ := q
          obtain ⟨x, e⟩ := troubled_graph (memory := memory) h hfiles o l r
          have hm : Troubled.compute memory left right world o label l r output = .error (.exc x) := by
            unfold Troubled.compute
            rw [e]
            rfl
          simp only
          rw [hm]
          unfold Limited.thrown
          simp only
          right
          split
          · cases x <;> exact ⟨_, rfl, rfl, by simp, by simp⟩
          · exact ⟨_, rfl, rfl, by simp, .inr rfl⟩
  · have h1 : left = none := by cases left <;> simp_all
    have h2 : right = none := by cases right <;> simp_all
    subst h1 h2
    rw [troubled_limited]
    rcases C106_memory (memory := memory) hw cl with h | ⟨-, out, h⟩ | ⟨-, out, h⟩
    · exact .inl h
    · exact .inr ⟨_, h, rfl, by simp, .inr rfl⟩
    · exact .inr ⟨_, h, rfl, by simp, .inl rfl⟩

/-- What is left of a file. -/
def World.cut (world : World F) (out : Outcome) : Outcome := { out with written := out.written.map fun w => (w.1, world.stored w.1 w.2) }

/-- A file that does not fit is the beginning of the file that is written when there is room; nothing else is different. -/
theorem program_room (cl : CommandLine) :
    program world cl = (program { world with room := fun _ => none } cl).map world.cut := by
  cases cl with
  | repeated => rfl
  | wrong => rfl
  | parsed o =>
    unfold program
    simp only
    rcases ho : o.outputImage with _ | output <;> rcases hl : o.leftImage with _ | l <;> rcases hr : o.rightImage with _ | r <;>
      try rfl
    simp only
    rw [show chooseParallelism { world with room := fun _ => none } o.parallel = chooseParallelism world o.parallel from rfl]
    cases chooseParallelism world o.parallel with
    | none => rfl
    | some q =>
      obtain ⟨out, label⟩ := q
      simp only
      unfold compute
      rw [show readGraph { world with room := fun _ => none } o l r = readGraph world o l r from rfl]
      have herr : ∀ e, handle out (.error e) = (handle out (.error e)).map world.cut := by
        intro e
        cases e with
        | exc x => cases x <;> rfl
        | _ => rfl
      cases readGraph world o l r with
      | error e => exact herr e
      | ok g =>
        rw [bind_ok, bind_ok]
        show _ = Except.map _ (handle out (Par.labeledMap world.solve label g >>= _))
        cases Par.labeledMap world.solve label g with
        | error e => exact herr e
        | ok im =>
          rw [bind_ok, bind_ok]
          cases writePgm (some im) with
          | error e => exact herr e
          | ok text =>
            rw [bind_ok, bind_ok]
            show handle out (.ok (if world.writable output = true then some (output, world.stored output text) else none)) =
              Except.map _ (handle out (.ok (if world.writable output = true then some (output, text) else none)))
            cases world.writable output <;> rfl

end

section
variable {F D : Type} [FloatOps F] [FloatOps D]

/-- Devices with failures of any kind: OpenCL may fail; a CUDA device may have limits, and calls of CUDA may fail. Kernels of CUDA compute with 32 bits. -/
structure World.AnyDevices (world : World F) (conv : F → D) (allowed : (Nat → Nat) → Prop) : Prop where
  openCL : ∀ f, world.openCL = some f → ∃ launch : Launcher D, launch.Possible cspIteration allowed ∧
    (f = findLabelingCl conv launch ∨ ∃ failure, f = findLabelingClFailing failure conv launch)
  cuda : ∀ f, world.cuda = some f → ∃ launch : Launcher D, launch.Possible Cuda.cspIteration allowed ∧
    (f = Cuda.findLabeling conv launch ∨ (∃ limits, f = Cuda.findLabelingLimited limits conv launch) ∨
      ∃ trouble, f = findLabelingRelease trouble best32 conv launch)

variable {world : World F} {conv : F → D} {allowed : (Nat → Nat) → Prop} {B : Nat} {jobs : UInt64}

/-- Instead of a device whose calls fail there is one whose calls do not fail. -/
theorem anyDevices_sound (hw : world.Reasonable jobs) (hruns : world.Runs B jobs) (hdev : world.AnyDevices conv allowed) (cl : CommandLine)
    (hfit : world.Fits32 cl) :
    ∃ cuda', { world with cuda := cuda' }.Devices32 conv allowed ∧
      SameOrFailed D allowed (program world cl) (program { world with cuda := cuda' } cl) := by
  have keep : (∀ f, world.cuda = some f → ∃ launch : Launcher D, launch.Possible Cuda.cspIteration allowed ∧
      (f = Cuda.findLabeling conv launch ∨ ∃ limits, f = Cuda.findLabelingLimited limits conv launch)) →
      ∃ cuda', { world with cuda := cuda' }.Devices32 conv allowed ∧
        SameOrFailed D allowed (program world cl) (program { world with cuda := cuda' } cl) :=
    fun h => ⟨world.cuda, ⟨hdev.openCL, h⟩, .inl rfl⟩
  cases hcuda : world.cuda with
  | none => exact keep fun f hf => by rw [hcuda] at hf; cases hf
  | some find =>
    obtain ⟨launch, hl, rfl | ⟨limits, rfl⟩ | ⟨trouble, rfl⟩⟩ := hdev.cuda find hcuda
    · exact keep fun f hf => by rw [hcuda] at hf; cases hf; exact ⟨launch, hl, .inl rfl⟩
    · exact keep fun f hf => by rw [hcuda] at hf; cases hf; exact ⟨launch, hl, .inr ⟨limits, rfl⟩⟩
    · refine ⟨some (Cuda.findLabeling conv launch), ⟨hdev.openCL, fun f hf => ?_⟩, C102_failures_32 hw hruns hl trouble hcuda cl hfit⟩
      cases hf
      exact ⟨launch, hl, .inl rfl⟩

/-- Where a file comes from: the program without failures writes it, if there is room for it. -/
theorem C111_source (hmem : world.memory < 2147483648) (hj : 0 < jobs.toNat) (hj' : jobs.toNat ≤ 4294967296) (hruns : world.Runs B jobs)
    (hdev : world.AnyDevices conv allowed) (hfiles : ∀ path text, world.file path = some text → HarmlessFile text) (cl : CommandLine)
    (hfit : world.Fits32 cl) (memory : Memory) (left right : Fault) (out : Outcome)
    (h : Troubled.program memory left right world cl = .ok out) (path text : Text) (hwr : out.written = some (path, text)) :
    ∃ cuda' whole, { world with room := fun _ => none, cuda := cuda' }.Devices32 conv allowed ∧ text = world.stored path whole ∧
      program { world with room := fun _ => none, cuda := cuda' } cl = .ok { out with written := some (path, whole) } := by
  have h1 : program world cl = .ok out := by
    rcases C111_outcome hmem hfiles memory left right cl with e | ⟨out', e, e', -⟩
    · exact e ▸ h
    · rw [h] at e; cases e; rw [e'] at hwr; cases hwr
  obtain ⟨whole, h2, hs⟩ : ∃ whole, program { world with room := fun _ => none } cl = .ok { out with written := some (path, whole) } ∧
      text = world.stored path whole := by
    rw [program_room] at h1
    cases h : program { world with room := fun _ => none } cl with
    | error e => rw [h] at h1; cases h1
    | ok out' =>
      rw [h] at h1
      cases h1
      obtain ⟨exit, ms, err, written⟩ := out'
      cases written with
      | none => cases hwr
      | some w => cases hwr; exact ⟨w.2, rfl, rfl⟩
  have hw : ({ world with room := fun _ => none } : World F).Reasonable jobs := ⟨hmem, hj, hj', fun _ => rfl⟩
  obtain ⟨cuda', h3, h4⟩ := anyDevices_sound (world := { world with room := fun _ => none }) hw hruns ⟨hdev.openCL, hdev.cuda⟩ cl hfit
  refine ⟨cuda', whole, h3, hs, ?_⟩
  rw [h2] at h4
  rcases h4 with h4 | h4 | h4 | ⟨h4, -⟩
  · exact h4.symm
  · injection h4 with h4; cases congrArg Outcome.written h4
  · injection h4 with h4; cases congrArg Outcome.written h4
  · cases h4

end

section
variable {world : World Double} {allowed : (Nat → Nat) → Prop} {B : Nat} {jobs : UInt64}

/-- **C111**. Numbers are `double` for the processor and `float` for devices; files may be impossible to read, memory may be impossible to allocate, the
devices may fail, there may be no room for the map, and threads and work items may be executed in any order. If anything is written, then it is the
beginning of the text of a map that is almost the best, and the whole text if there is room. -/
theorem C111_no_wrong_map (hmem : world.memory < 2147483648) (hj : 0 < jobs.toNat) (hj' : jobs.toNat ≤ 4294967296) (hruns : world.Runs B jobs)
    (hdev : world.AnyDevices (Ieee.convert : Double → Single) allowed)
    (hfiles : ∀ path text, world.file path = some text → HarmlessFile text) (cl : CommandLine)
    (hfit : world.Fits32 cl) (memory : Memory) (left right : Fault) (out : Outcome)
    (h : Troubled.program memory left right world cl = .ok out) (path text : Text) (hwr : out.written = some (path, text)) :
    ∃ whole, text <+: whole ∧ ((∀ n, world.room path = some n → whole.length ≤ n) → text = whole) ∧
      world.NearResult (1 / 2 ^ 19) cl out path whole := by
  obtain ⟨cuda', whole, h1, h2, h3⟩ := C111_source hmem hj hj' hruns hdev hfiles cl hfit memory left right out h path text hwr
  refine ⟨whole, ?_, fun hroom => ?_, ?_⟩
  · rw [h2]
    unfold World.stored
    split
    · exact List.prefix_refl _
    · exact List.take_prefix _ _
  · rw [h2]
    unfold World.stored
    split
    · rfl
    · rename_i n hn
      exact List.take_of_length_le (hroom n hn)
  · exact C99_near_optimal_32 (world := { world with room := fun _ => none, cuda := cuda' }) ⟨hmem, hj, hj', fun _ => rfl⟩ hruns h1 cl hfit _ h3 path whole rfl

/-- With intensities and weights that are not too large it is the beginning of the text of the best map. -/
theorem C111_best_map (hmem : world.memory < 2147483648) (hj : 0 < jobs.toNat) (hj' : jobs.toNat ≤ 4294967296) (hruns : world.Runs B jobs)
    (hdev : world.AnyDevices (Ieee.convert : Double → Single) allowed)
    (hfiles : ∀ path text, world.file path = some text → HarmlessFile text) (cl : CommandLine)
    (hfit : world.Fits32 cl) (hr : ∀ o l r, cl = .parsed o → o.leftImage = some l → o.rightImage = some r → world.InRange 24 o l r)
    (memory : Memory) (left right : Fault) (out : Outcome)
    (h : Troubled.program memory left right world cl = .ok out) (path text : Text) (hwr : out.written = some (path, text)) :
    ∃ whole, text = world.stored path whole ∧ world.Result ℚ cl out path whole := by
  obtain ⟨cuda', whole, h1, h2, h3⟩ := C111_source hmem hj hj' hruns hdev hfiles cl hfit memory left right out h path text hwr
  exact ⟨whole, h2, C94_exact (world := { world with room := fun _ => none, cuda := cuda' }) ⟨hmem, hj, hj', fun _ => rfl⟩ hruns h1 cl hfit hr _ h3 path whole rfl⟩

/-- How the program may end. -/
theorem C111_ends (hmem : world.memory < 2147483648) (hj : 0 < jobs.toNat) (hj' : jobs.toNat ≤ 4294967296) (hs : world.solve.Possible B jobs)
    (hdev : world.AnyDevices (Ieee.convert : Double → Single) allowed)
    (hfiles : ∀ path text, world.file path = some text → HarmlessFile text) (cl : CommandLine)
    (hfit : world.Fits32 cl) (memory : Memory) (left right : Fault) :
    (Ok (Troubled.program memory left right world cl) fun out => out.exit = 0 ∨ out.exit = 1) ∨
    (Troubled.program memory left right world cl = .error .nonterm ∧ B ≠ 1 ∧ jobs ≠ 1) ∨
    (Troubled.program memory left right world cl = .error .ub ∧ ∃ kernel : Kernel Single, IsKernel kernel ∧ Misses kernel allowed .ub) := by
  rcases C111_outcome hmem hfiles memory left right cl with e | ⟨out, e, -, -, he⟩
  · rw [e, program_room]
    have hw : ({ world with room := fun _ => none } : World Double).Reasonable jobs := ⟨hmem, hj, hj', fun _ => rfl⟩
    obtain ⟨cuda', h3, h4⟩ := anyDevices_sound (world := { world with room := fun _ => none }) hw (.inl hs) ⟨hdev.openCL, hdev.cuda⟩ cl hfit
    rcases h4 with h4 | h4 | h4 | ⟨h4, h5⟩
    · rw [h4]
      rcases C94_outcomes (world := { world with room := fun _ => none, cuda := cuda' }) ⟨hmem, hj, hj', fun _ => rfl⟩ hs h3 hfiles cl hfit with
        ⟨out, h5, h6⟩ | ⟨h5, h6⟩ | ⟨h5, h6⟩
      · exact .inl ⟨world.cut out, by rw [h5]; rfl, h6⟩
      · exact .inr (.inl ⟨by rw [h5]; rfl, h6⟩)
      · exact .inr (.inr ⟨by rw [h5]; rfl, h6⟩)
    · exact .inl ⟨_, by rw [h4]; rfl, .inl rfl⟩
    · exact .inl ⟨_, by rw [h4]; rfl, .inl rfl⟩
    · exact .inr (.inr ⟨by rw [h4]; rfl, _, .inr rfl, h5⟩)
  · exact .inl ⟨out, e, he⟩

end

/-! ## Examples -/

set_option maxRecDepth 1000000

/-- There is room for five characters, and memory of the device cannot be freed. -/
noncomputable def crampedWorld : World Double :=
  { failingWorld { calm with finish := fun i => if i = 4 then .lost else .fine } with room := fun _ => some 5 }

theorem crampedWorld_any : crampedWorld.AnyDevices (Ieee.convert : Double → Single) (· = id) :=
  ⟨fun f hf => (by cases hf), fun f hf => by cases hf; exact ⟨_, Launcher.ofTurns_possible (allowed := (· = id)) (group := id) rfl _, .inr (.inr ⟨_, rfl⟩)⟩⟩

/-- C111: the beginning of a map is written. -/
example : ∃ world : World Double, world.memory < 2147483648 ∧ world.Runs 64 1 ∧ world.AnyDevices (Ieee.convert : Double → Single) (· = id) ∧
    (∀ path text, world.file path = some text → HarmlessFile text) ∧ world.Fits32 (.parsed (weighted none none (some "CUDA"))) ∧
    Troubled.program (fun _ _ => true) none none world (.parsed (weighted none none (some "CUDA"))) =
      .ok { exit := 0, out := [.cuda], written := some (bytes "o", bytes "P2\n4 ") } := by
  have hm : crampedWorld.memory < 536870912 := by show 1000 < 536870912; decide
  refine ⟨crampedWorld, by omega, .inr rfl, crampedWorld_any, floatWorld_harmless fun _ _ => .error .ub, cudaWorld_fits (fun _ => .error .ub) _, ?_⟩
  rw [troubled_limited, C106_enough (by omega) (fun _ _ => rfl), program_room]
  · rw [show program { crampedWorld with room := fun _ => none } (.parsed (weighted none none (some "CUDA"))) =
      .ok { exit := 0, out := [.cuda], written := some (bytes "o", bytes "P2\n4 1\n3\n0 1 0 0\n") } from failing_computed rfl (by decide +kernel)]
    show (Except.ok { exit := 0, out := [.cuda], written := some (bytes "o", (bytes "P2\n4 1\n3\n0 1 0 0\n").take 5) } : M Outcome) = _
    decide +kernel
  · intro o l r ho hl hr
    cases ho
    cases hl
    cases hr
    have e : readImage crampedWorld (bytes "l") = _ := (floatWorld_images fun _ _ => .error .ub).1
    exact C106_small (levels := 3) hm e (show stoul (bytes "3") = .ok 3 by decide +kernel) (by decide) (by decide)

-- an error of reading, a lack of memory for the text of the exception
example : Troubled.program (fun a _ => a != .message) none (some id) (imagesWorld "P2 2 1 99 10 20" "P2 2 1 99 10 20\n \n" (fun _ => solveCsp 1) none)
      (.parsed (imagesOptions "2" "1" "1" none)) =
    .ok { exit := 1, err := [.unexpected "std::bad_alloc"] } := by decide +kernel

-- a lack of memory for the left image comes before the error of reading of the right one
example : Troubled.program (fun a _ => a != .image 0) none (some id) (imagesWorld "P2 2 1 99 10 20" "P2 2 1 99 10 20\n \n" (fun _ => solveCsp 1) none)
      (.parsed (imagesOptions "2" "1" "1" none)) =
    .ok { exit := 1, err := [.unexpected "std::bad_alloc"] } := by decide +kernel

end SP
