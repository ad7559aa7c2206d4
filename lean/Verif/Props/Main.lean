import Verif.Model.Main
import Verif.Props.Pgm
import Verif.Props.Labeling
/-!
# Properties C54, C55, C63, C64, C72, C73: options and messages of the program
-/
namespace SP
open FloatOps
variable {F : Type} [FloatOps F]

/-! ## C54: help -/

theorem chooseParallelism_out {world : World F} {p : Option Text} {out : List Message} {f : Labeler F}
    (h : chooseParallelism world p = some (out, f)) : ∀ m ∈ out, m = .openCL ∨ m = .cuda ∨ m = .openMP := by
  unfold chooseParallelism at h
  split at h
  · cases h; simp
  · dsimp only at h
    repeat' split at h
    all_goals first | (cases h; simp; done) | cases h

/-- The cases of `main`. -/
theorem program_cases (world : World F) (cl : CommandLine) :
    (∃ e, program world cl = .ok { exit := 1, err := [e] } ∧ e ≠ .help) ∨
    (program world cl = .ok { exit := 0, err := [.specifyImages] } ∧
      ∃ o, cl = .parsed o ∧ (o.leftImage = none ∨ o.rightImage = none)) ∨
    (program world cl = .ok { exit := 0, err := [.specifyOutput] } ∧ ∃ o, cl = .parsed o ∧ o.outputImage = none) ∨
    (∃ o l r p out f, cl = .parsed o ∧ o.leftImage = some l ∧ o.rightImage = some r ∧ o.outputImage = some p ∧
      chooseParallelism world o.parallel = some (out, f) ∧
      program world cl = handle out (compute world o f l r p)) := by
  cases cl with
  | repeated => exact .inl ⟨_, rfl, by simp⟩
  | wrong => exact .inl ⟨_, rfl, by simp⟩
  | parsed o =>
    unfold program
    dsimp only
    cases hp : o.outputImage with
    | none =>
      by_cases h : o.leftImage = none ∨ o.rightImage = none
      · exact .inr (.inl ⟨if_pos h, o, rfl, h⟩)
      · exact .inr (.inr (.inl ⟨by simp only [if_neg h, if_true], o, rfl, hp⟩))
    | some p =>
      cases hl : o.leftImage with
      | none => exact .inr (.inl ⟨by simp, o, rfl, .inl hl⟩)
      | some l =>
        cases hr : o.rightImage with
        | none => exact .inr (.inl ⟨by simp, o, rfl, .inr hr⟩)
        | some r =>
          dsimp only
          cases hc : chooseParallelism world o.parallel with
          | none => exact .inl ⟨_, rfl, by simp⟩
          | some c =>
            obtain ⟨out, f⟩ := c
            exact .inr (.inr (.inr ⟨o, l, r, p, out, f, rfl, hl, hr, hp, hc, rfl⟩))

/-- The cases of the handlers. -/
theorem handle_cases (out : List Message) (m : M (Option (Text × Text))) :
    (∃ w, m = .ok w ∧ handle out m = .ok { exit := 0, out := out, written := w }) ∨
    (∃ e msg, m = .error (.exc e) ∧ (msg = .invalidArgument e.what ∨ msg = .logicError e.what) ∧
      handle out m = .ok { exit := 0, out := out, err := [msg] }) ∨
    (∃ e, m = .error (.exc e) ∧ handle out m = .ok { exit := 1, out := out, err := [.unexpected e.what] }) ∨
    ((m = .error .ub ∨ m = .error .nonterm) ∧ handle out m = m.map fun _ => { exit := 0 }) ∨
    (m = .error .exit ∧ handle out m = .ok { exit := 0, out := out ++ [.cudaFailure] }) := by
  rcases m with e | w
  · cases e with
    | ub => exact .inr (.inr (.inr (.inl ⟨.inl rfl, rfl⟩)))
    | nonterm => exact .inr (.inr (.inr (.inl ⟨.inr rfl, rfl⟩)))
    | exit => exact .inr (.inr (.inr (.inr ⟨rfl, rfl⟩)))
    | exc e =>
      cases e with
      | invalidArgument w => exact .inr (.inl ⟨_, _, rfl, .inl rfl, rfl⟩)
      | logicError w => exact .inr (.inl ⟨_, _, rfl, .inr rfl, rfl⟩)
      | outOfRange => exact .inr (.inl ⟨_, _, rfl, .inr rfl, rfl⟩)
      | lengthError => exact .inr (.inl ⟨_, _, rfl, .inr rfl, rfl⟩)
      | badAlloc => exact .inr (.inr (.inl ⟨_, rfl, rfl⟩))
      | other w => exact .inr (.inr (.inl ⟨_, rfl, rfl⟩))
  · exact .inl ⟨w, rfl, rfl⟩

/-- **C54** is false as stated: launched without parameters, the program does not print the list of options but asks for images;
with `--help` alone as well. -/
theorem C54_no_parameters_refuted (world : World F) :
    program world (.parsed {}) = .ok { exit := 0, err := [.specifyImages] } ∧
    program world (.parsed { help := true }) = .ok { exit := 0, err := [.specifyImages] } :=
  ⟨rfl, rfl⟩

/-- The list of options is never printed, whatever the command line and the files. -/
theorem C54_help_never_printed (world : World F) (cl : CommandLine) (o : Outcome) (h : program world cl = .ok o) :
    .help ∉ o.out ∧ .help ∉ o.err := by
  rcases program_cases world cl with ⟨e, h1, h2⟩ | ⟨h1, -⟩ | ⟨h1, -⟩ | ⟨op, l, r, p, out, f, -, -, -, -, h2, h1⟩
  · rw [h] at h1
    cases h1
    exact ⟨by simp, by simpa using Ne.symm h2⟩
  · rw [h] at h1
    cases h1
    simp
  · rw [h] at h1
    cases h1
    simp
  · have hout : .help ∉ out := by
      intro hm
      rcases chooseParallelism_out h2 _ hm with h | h | h <;> cases h
    rw [h] at h1
    rcases handle_cases out (compute world op f l r p) with ⟨w, -, h3⟩ | ⟨e, msg, -, h4, h3⟩ | ⟨e, -, h3⟩ | ⟨h4, h3⟩ | ⟨-, h3⟩
    · rw [h3] at h1; cases h1; exact ⟨hout, by simp⟩
    · rw [h3] at h1; cases h1
      refine ⟨hout, ?_⟩
      rcases h4 with rfl | rfl <;> simp
    · rw [h3] at h1; cases h1; exact ⟨hout, by simp⟩
    · rcases h4 with h4 | h4 <;> rw [h4] at h1 <;> cases h1
    · rw [h3] at h1; cases h1; exact ⟨by simpa using hout, by simp⟩

/-! ## C55, C63: how errors are reported -/

/-- A file is written only if the program ends normally. -/
theorem compute_written {world : World F} {o : Options} {f : Labeler F} {l r p : Text} {w : Option (Text × Text)} (h : compute world o f l r p = .ok w) :
    (world.writable p = true ∧ ∃ text, w = some (p, text)) ∨ (world.writable p = false ∧ w = none) := by
  unfold compute at h
  cases h1 : readGraph world o l r with
  | error e => rw [h1] at h; cases h
  | ok g =>
    rw [h1, bind_ok] at h
    cases h2 : Par.labeledMap world.solve f g with
    | error e => rw [h2] at h; cases h
    | ok im =>
      rw [h2, bind_ok] at h
      cases h3 : writePgm (some im) with
      | error e => rw [h3] at h; cases h
      | ok text =>
        rw [h3, bind_ok] at h
        cases hw : world.writable p
        · rw [hw] at h
          exact .inr ⟨rfl, by cases h; rfl⟩
        · rw [hw] at h
          exact .inl ⟨rfl, world.stored p text, by cases h; rfl⟩

/-- **C55**, what holds. Full statement: the program returns 0 if and only if it wrote a disparity map. It is false
(`C55_missing_images_refuted`, `C55_missing_file_refuted`). What holds: if the status is not 0, nothing is written. -/
theorem C55_status_partial (world : World F) (cl : CommandLine) (o : Outcome) (h : program world cl = .ok o) :
    o.exit ≠ 0 → o.written = none := by
  rcases program_cases world cl with ⟨e, h1, h2⟩ | ⟨h1, -⟩ | ⟨h1, -⟩ | ⟨op, l, r, p, out, f, -, -, -, -, h2, h1⟩
  · rw [h] at h1; cases h1; simp
  · rw [h] at h1; cases h1; simp
  · rw [h] at h1; cases h1; simp
  · rw [h] at h1
    rcases handle_cases out (compute world op f l r p) with ⟨w, -, h3⟩ | ⟨e, msg, -, h4, h3⟩ | ⟨e, -, h3⟩ | ⟨h4, h3⟩ | ⟨-, h3⟩
    · rw [h3] at h1; cases h1; simp
    · rw [h3] at h1; cases h1; simp
    · rw [h3] at h1; cases h1; simp
    · rcases h4 with h4 | h4 <;> rw [h4] at h1 <;> cases h1
    · rw [h3] at h1; cases h1; simp

/-- **C55** is false as stated: without images the status is 0. -/
theorem C55_missing_images_refuted (world : World F) :
    Ok (program world (.parsed {})) fun o => o.exit = 0 ∧ o.written = none := ⟨_, rfl, rfl, rfl⟩

/-- **C55** is false as stated: if the left image does not exist, the status is 0. -/
theorem C55_missing_file_refuted (world : World F) (l r p : Text) (h : world.file l = none) :
    Ok (program world (.parsed { leftImage := some l, rightImage := some r, outputImage := some p })) fun o =>
      o.exit = 0 ∧ o.written = none ∧ o.err = [.invalidArgument "Unable to open file."] := by
  refine ⟨{ exit := 0, err := [.invalidArgument "Unable to open file."] }, ?_, rfl, rfl, rfl⟩
  unfold program
  simp only [chooseParallelism]
  have : compute world { leftImage := some l, rightImage := some r, outputImage := some p } (Par.labelCpu world.solve) l r p =
      .error (.exc (.invalidArgument "Unable to open file.")) := by
    unfold compute readGraph readImage
    rw [h]
    rfl
  rw [this]
  rfl

/-- **C63**, what holds. Full statement: a disparity map is written if and only if nothing is printed to the error stream. It is
proved under the assumption that the output file can be opened and that no failure of CUDA is printed to the standard output;
`C63_unwritable_output_refuted` and `C63_cuda_failure_refuted` (`Props/CudaLimits.lean`) show that it is needed. -/
theorem C63_error_stream_tells_partial (world : World F) (cl : CommandLine) (o : Outcome) (h : program world cl = .ok o)
    (hw : ∀ p, world.writable p = true) (hcuda : .cudaFailure ∉ o.out) : o.err = [] ↔ o.written ≠ none := by
  rcases program_cases world cl with ⟨e, h1, h2⟩ | ⟨h1, -⟩ | ⟨h1, -⟩ | ⟨op, l, r, p, out, f, -, -, -, -, h2, h1⟩
  · rw [h] at h1; cases h1; simp
  · rw [h] at h1; cases h1; simp
  · rw [h] at h1; cases h1; simp
  · rw [h] at h1
    rcases handle_cases out (compute world op f l r p) with ⟨w, h4, h3⟩ | ⟨e, msg, -, h4, h3⟩ | ⟨e, -, h3⟩ | ⟨h4, h3⟩ | ⟨-, h3⟩
    · rw [h3] at h1; cases h1
      rcases compute_written h4 with ⟨-, text, rfl⟩ | ⟨h5, -⟩
      · simp
      · rw [hw] at h5; cases h5
    · rw [h3] at h1; cases h1; simp
    · rw [h3] at h1; cases h1; simp
    · rcases h4 with h4 | h4 <;> rw [h4] at h1 <;> cases h1
    · rw [h3] at h1; cases h1; simp at hcuda

/-- A world with two small images. -/
def smallWorld : World Int :=
  { file := fun p =>
      if p = bytes "l" then some (bytes "P2 3 2 3 1 2 3 0 1 2") else if p = bytes "r" then some (bytes "P2 3 2 3 2 3 3 1 2 2") else none
    writable := fun p => p = bytes "o"
    memory := 100
    solve := fun _ => solveCsp 1 }

/-- Options for these images. -/
def smallOptions (output : String) : Options :=
  { leftImage := some (bytes "l")
    rightImage := some (bytes "r")
    outputImage := some (bytes output)
    disparityLevels := some (bytes "2")
    parallel := some (bytes "OMP") }

/-- A run that writes a map. -/
example : program smallWorld (.parsed (smallOptions "o")) =
    .ok { exit := 0, out := [.openMP], written := some (bytes "o", bytes "P2\n3 2\n2\n1 1 0\n1 1 0\n") } := by decide +kernel

/-- The assumption of `C63_error_stream_tells_partial` is needed: if the output file cannot be opened, nothing is printed and the status
is 0. -/
theorem C63_unwritable_output_refuted :
    program smallWorld (.parsed (smallOptions "x")) = .ok { exit := 0, out := [.openMP] } := by decide +kernel

/-! ## C64: numbers in options -/

/-- **C64**, what holds. Full statement: weights and the number of levels given as options are used as given, and anything else than a
number is refused. It is false (`C64_number_options_refuted`). What holds: a decimal notation of a 64-bit number is used as given,
and a value that does not begin like a number is refused. -/
theorem C64_number_options_partial (left : Image) (v : UInt64) (t : Text) (ht : ∀ c ∈ t, isSpace c = false) (hn : ¬ LikeNumber t) :
    (weightOption (some (decimal v)) : M F) = .ok (ofNat v.toNat) ∧ levelsOption left (some (decimal v)) = .ok v ∧
    (weightOption (some t) : M F) = .error (.exc (.invalidArgument "stoul")) ∧
    levelsOption left (some t) = .error (.exc (.invalidArgument "stoul")) := by
  have h1 := stoul_decimal v
  have h2 := (stoul_invalid ht).2 hn
  refine ⟨?_, ?_, ?_, ?_⟩
  · unfold weightOption; dsimp only; rw [h1]; rfl
  · unfold levelsOption; exact h1
  · unfold weightOption; dsimp only; rw [h2]; rfl
  · unfold levelsOption; exact h2

example : ¬ LikeNumber (bytes "x1") ∧ ∀ c ∈ bytes "x1", isSpace c = false := by
  have h : ∀ c ∈ bytes "x1", isSpace c = false := by decide +kernel
  exact ⟨(stoul_invalid h).1 (by decide +kernel), h⟩

/-- **C64** is false as stated: a fractional weight is cut to an integer, a negative weight becomes huge instead of being refused, and
garbage after a number is ignored. -/
theorem C64_number_options_refuted :
    (weightOption (some (bytes "0.5")) : M F) = .ok (ofNat 0) ∧
    (weightOption (some (bytes "-1")) : M F) = .ok (ofNat 18446744073709551615) ∧
    (weightOption (some (bytes "2x")) : M F) = .ok (ofNat 2) := by
  refine ⟨?_, ?_, ?_⟩
  · have : stoul (bytes "0.5") = .ok 0 := by decide +kernel
    unfold weightOption; dsimp only; rw [this]; rfl
  · have : stoul (bytes "-1") = .ok 18446744073709551615 := by decide +kernel
    unfold weightOption; dsimp only; rw [this]; rfl
  · have : stoul (bytes "2x") = .ok 2 := by decide +kernel
    unfold weightOption; dsimp only; rw [this]; rfl

/-! ## C72: the technology chosen by the user -/

/-- Ways to find a labeling. -/
inductive Technology where
  | cpu | openCL | cuda
  deriving DecidableEq

/-- Names of technologies. -/
def Technology.names : Technology → List String
  | .cpu => ["cpu", "openmp", "omp"]
  | .openCL => ["cl", "opencl"]
  | .cuda => ["cuda"]

/-- `a` is the letter `b` of a name, or the capital one; codes of capital letters are 65, …, 90, those of small ones are 97, …, 122. -/
def SameLetter (a b : UInt8) : Prop := a = b ∨ (65 ≤ a.toNat ∧ a.toNat ≤ 90 ∧ b.toNat = a.toNat + 32)

/-- The value of the option is a name of the technology, in any letter case. -/
def Technology.Named (t : Technology) (value : Text) : Prop := ∃ name ∈ t.names, List.Forall₂ SameLetter value (bytes name)

/-- What is printed. -/
def Technology.message : Technology → Message
  | .cpu => .openMP
  | .openCL => .openCL
  | .cuda => .cuda

/-- The function that finds a labeling, if the program is built with the technology. -/
def World.labeler (world : World F) : Technology → Option (Labeler F)
  | .cpu => some (Par.labelCpu world.solve)
  | .openCL => world.openCL.map fun f _ => f
  | .cuda => world.cuda.map fun f _ => f

theorem toLower_iff {a b : UInt8} (hb : 97 ≤ b.toNat) : toLower a = b ↔ SameLetter a b := by
  unfold toLower SameLetter
  have e1 : (65 ≤ a) ↔ 65 ≤ a.toNat := UInt8.le_iff_toNat_le
  have e2 : (a ≤ 90) ↔ a.toNat ≤ 90 := UInt8.le_iff_toNat_le
  simp only [Bool.and_eq_true, decide_eq_true_eq, e1, e2]
  by_cases h : 65 ≤ a.toNat ∧ a.toNat ≤ 90
  · have hadd : (a + 32).toNat = a.toNat + 32 := by
      rw [UInt8.toNat_add]
      show (a.toNat + 32) % 256 = _
      omega
    rw [if_pos h]
    constructor
    · rintro rfl
      exact .inr ⟨h.1, h.2, hadd⟩
    · rintro (rfl | ⟨-, -, h3⟩)
      · omega
      · exact UInt8.toNat_inj.1 (hadd.trans h3.symm)
  · rw [if_neg h]
    constructor
    · exact .inl
    · rintro (rfl | ⟨h1, h2, -⟩)
      · rfl
      · exact absurd ⟨h1, h2⟩ h

theorem map_toLower_iff {value name : Text} (hn : ∀ b ∈ name, 97 ≤ b.toNat) :
    value.map toLower = name ↔ List.Forall₂ SameLetter value name := by
  induction value generalizing name with
  | nil => cases name <;> simp
  | cons a value ih =>
    cases name with
    | nil => simp
    | cons b name =>
      rw [List.map_cons, List.cons.injEq, List.forall₂_cons, toLower_iff (hn b (by simp)), ih fun b hb => hn b (by simp [hb])]

theorem Technology.named_iff (t : Technology) (value : Text) : t.Named value ↔ ∃ name ∈ t.names, value.map toLower = bytes name := by
  refine exists_congr fun name => and_congr_right fun hname => (map_toLower_iff ?_).symm
  cases t <;> simp only [names, List.mem_cons, List.not_mem_nil, or_false] at hname
  · rcases hname with rfl | rfl | rfl <;> decide +kernel
  · rcases hname with rfl | rfl <;> decide +kernel
  · subst hname
    decide +kernel

theorem names_bytes : bytes "cl" = nameCl ∧ bytes "opencl" = nameOpenCl ∧ bytes "cuda" = nameCuda ∧ bytes "cpu" = nameCpu ∧
    bytes "openmp" = nameOpenMp ∧ bytes "omp" = nameOmp := by decide +kernel

theorem chooseParallelism_named (world : World F) (t : Technology) (value : Text) (h : t.Named value)
    {f : Labeler F} (hf : world.labeler t = some f) :
    chooseParallelism world (some value) = some ([t.message], f) := by
  rw [t.named_iff] at h
  obtain ⟨e1, e2, e3, e4, e5, e6⟩ := names_bytes
  obtain ⟨file, writable, memory, solve, openCL, cuda, room⟩ := world
  unfold chooseParallelism
  dsimp only
  have d1 : nameCpu ≠ nameCl ∧ nameCpu ≠ nameOpenCl ∧ nameCpu ≠ nameCuda := by decide +kernel
  have d2 : nameOpenMp ≠ nameCl ∧ nameOpenMp ≠ nameOpenCl ∧ nameOpenMp ≠ nameCuda := by decide +kernel
  have d3 : nameOmp ≠ nameCl ∧ nameOmp ≠ nameOpenCl ∧ nameOmp ≠ nameCuda := by decide +kernel
  have d4 : nameCuda ≠ nameCl ∧ nameCuda ≠ nameOpenCl := by decide +kernel
  cases t with
  | cpu =>
    simp only [World.labeler, Option.some.injEq] at hf
    simp only [Technology.names, List.mem_cons, List.not_mem_nil, or_false, exists_eq_or_imp, exists_eq_left, e4, e5, e6] at h
    have h1 : value.map toLower ≠ nameCl ∧ value.map toLower ≠ nameOpenCl ∧ value.map toLower ≠ nameCuda := by
      rcases h with h | h | h <;> rw [h] <;> assumption
    cases openCL <;> cases cuda <;> simp [h, h1, hf, Technology.message]
  | openCL =>
    simp only [World.labeler] at hf
    simp only [Technology.names, List.mem_cons, List.not_mem_nil, or_false, exists_eq_or_imp, exists_eq_left, e1, e2] at h
    cases openCL with
    | none => simp at hf
    | some g =>
      simp only [Option.map_some, Option.some.injEq] at hf
      cases cuda <;> simp [h, hf, Technology.message]
  | cuda =>
    simp only [World.labeler] at hf
    simp only [Technology.names, List.mem_cons, List.not_mem_nil, or_false, exists_eq_left, e3] at h
    cases cuda with
    | none => simp at hf
    | some g =>
      simp only [Option.map_some, Option.some.injEq] at hf
      cases openCL <;> simp [h, hf, d4, Technology.message]

theorem chooseParallelism_unknown (world : World F) (value : Text)
    (h : ∀ t, world.labeler t ≠ none → ¬ t.Named value) : chooseParallelism world (some value) = none := by
  obtain ⟨e1, e2, e3, e4, e5, e6⟩ := names_bytes
  obtain ⟨file, writable, memory, solve, openCL, cuda, room⟩ := world
  have h1 := h .cpu (by simp [World.labeler])
  have h2 := h .openCL
  have h3 := h .cuda
  simp only [Technology.named_iff, Technology.names, List.mem_cons, List.not_mem_nil, or_false, exists_eq_or_imp, exists_eq_left,
    e1, e2, e3, e4, e5, e6, World.labeler] at h1 h2 h3
  unfold chooseParallelism
  dsimp only
  cases openCL <;> cases cuda <;> simp_all

/-- **C72**. If the program is built with a technology and its name is given (in any letter case), exactly this technology is announced
and used; without the option labeling is found by the processor, silently; any other name ends the program with status 1 before files
are read. -/
theorem C72_technology (world : World F) (o : Options) (l r p : Text) (hl : o.leftImage = some l) (hr : o.rightImage = some r)
    (hp : o.outputImage = some p) :
    (∀ t value f, o.parallel = some value → t.Named value → world.labeler t = some f →
      program world (.parsed o) = handle [t.message] (compute world o f l r p)) ∧
    (o.parallel = none → program world (.parsed o) = handle [] (compute world o (Par.labelCpu world.solve) l r p)) ∧
    (∀ value, o.parallel = some value → (∀ t, world.labeler t ≠ none → ¬ t.Named value) →
      program world (.parsed o) = .ok { exit := 1, err := [.unexpected "`parallel` cannot be"] }) := by
  refine ⟨fun t value f h1 h2 h3 => ?_, fun h1 => ?_, fun value h1 h2 => ?_⟩
  · unfold program
    simp only [hl, hr, hp, h1, chooseParallelism_named world t value h2 h3]
  · unfold program
    simp only [hl, hr, hp, h1, chooseParallelism]
  · unfold program
    simp only [hl, hr, hp, h1, chooseParallelism_unknown world value h2]

/-- The first part is not vacuous. -/
example : Technology.openCL.Named (bytes "OpenCL") ∧ Technology.cpu.Named (bytes "OMP") ∧
    Technology.cuda.Named (bytes "Cuda") ∧ (∀ t, smallWorld.labeler t ≠ none → ¬ t.Named (bytes "cl")) := by
  simp only [Technology.named_iff]
  refine ⟨by decide +kernel, by decide +kernel, by decide +kernel, ?_⟩
  intro t
  cases t
  · exact fun _ => by decide +kernel
  · exact fun h => absurd rfl h
  · exact fun h => absurd rfl h

/-! ## C73: values of options that are not given -/

/-- **C73**. An option that is not given is the same as the option given with its default value: 1 for both weights, the width of the
left image for the number of disparity levels. -/
theorem C73_defaults (world : World F) (o : Options) :
    program world (.parsed { o with cleanness := none }) = program world (.parsed { o with cleanness := some (bytes "1") }) ∧
    program world (.parsed { o with smoothness := none }) = program world (.parsed { o with smoothness := some (bytes "1") }) ∧
    ∀ text, (∀ l left, o.leftImage = some l → readImage world l = .ok left → text = decimal left.width) →
      program world (.parsed { o with disparityLevels := none }) =
        program world (.parsed { o with disparityLevels := some text }) := by
  have h1 : stoul (bytes "1") = .ok 1 := by decide +kernel
  have hw : (weightOption none : M F) = weightOption (some (bytes "1")) := by
    unfold weightOption
    dsimp only
    rw [h1]
    rfl
  have cong : ∀ o1 o2 : Options, o1.outputImage = o2.outputImage → o1.leftImage = o2.leftImage → o1.rightImage = o2.rightImage →
      o1.parallel = o2.parallel → (∀ l r, o2.leftImage = some l → readGraph world o1 l r = readGraph world o2 l r) →
      program world (.parsed o1) = program world (.parsed o2) := by
    intro o1 o2 e1 e2 e3 e4 h
    unfold program
    dsimp only
    rw [e1, e2, e3, e4]
    split
    · rename_i output l r _ hl _
      split
      · rfl
      · unfold compute
        rw [h _ _ hl]
    · rfl
  refine ⟨cong _ _ rfl rfl rfl rfl fun l r _ => ?_, cong _ _ rfl rfl rfl rfl fun l r _ => ?_, fun text ht => cong _ _ rfl rfl rfl rfl fun l r hl => ?_⟩
  · unfold readGraph
    dsimp only
    rw [hw]
  · unfold readGraph
    dsimp only
    rw [hw]
  · unfold readGraph
    dsimp only at hl ⊢
    cases he : readImage world l with
    | error e => rfl
    | ok left =>
      have : levelsOption left none = levelsOption left (some text) := by
        rw [ht l left hl he]
        unfold levelsOption
        exact (stoul_decimal _).symm
      rw [bind_ok, bind_ok, this]

example : Ok (readImage smallWorld (bytes "l")) fun im => decimal im.width = bytes "3" := by
  refine ⟨_, rfl, ?_⟩
  decide +kernel

end SP
