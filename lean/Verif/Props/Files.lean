import Verif.Model.Files
import Verif.Props.CudaLimits
import Verif.Props.DoubleRefuted
import Verif.Model.Troubles
import Verif.Props.Perfect
/-!
# C115: what happens to files

Only the output is changed, and only by an execution that has found a map; the output may be one of the inputs; executions that do not use
results of each other may be done in any order; a written map may be used as an image.
-/
namespace SP
open FloatOps ConstraintGraph Gpu
set_option maxRecDepth 1000000

section
variable {F : Type} [FloatOps F]

/-- The command line names this file as the output. -/
def CommandLine.Output (cl : CommandLine) (path : Text) : Prop := ∃ o, cl = .parsed o ∧ o.outputImage = some path

/-- The command line names this file as an image to be read. -/
def CommandLine.Input (cl : CommandLine) (path : Text) : Prop := ∃ o, cl = .parsed o ∧ (o.leftImage = some path ∨ o.rightImage = some path)

/-! ## Only the output changes -/

theorem handle_result {ms : List Message} {m : M (Option (Text × Text))} {out : Outcome} (h : handle ms m = .ok out) :
    (∃ w, m = .ok w ∧ out = { exit := 0, out := ms, written := w }) ∨ ((∃ e, m = .error e) ∧ out.written = none) := by
  cases m with
  | ok w => cases h; exact .inl ⟨w, rfl, rfl⟩
  | error e => exact .inr ⟨⟨e, rfl⟩, handle_error h⟩

theorem compute_result {world : World F} {o : Options} {label : Labeler F} {l r p : Text} {w : Option (Text × Text)}
    (h : compute world o label l r p = .ok w) {path text : Text} (hw : w = some (path, text)) : path = p ∧ world.writable p = true := by
  unfold compute at h
  obtain ⟨g, -, h⟩ := bind_eq_ok h
  obtain ⟨im, -, h⟩ := bind_eq_ok h
  obtain ⟨t, -, h⟩ := bind_eq_ok h
  cases h
  cases hp : world.writable p with
  | false => simp [hp] at hw
  | true =>
    simp only [hp, if_true, Option.some.injEq, Prod.mk.injEq] at hw
    exact ⟨hw.1.symm, rfl⟩

/-- What is written is the file given as the output; the execution is successful then. -/
theorem program_written {world : World F} {cl : CommandLine} {out : Outcome} (h : program world cl = .ok out) {path text : Text}
    (hw : out.written = some (path, text)) : cl.Output path ∧ world.writable path = true ∧ out.exit = 0 ∧ out.err = [] := by
  cases cl with
  | repeated => cases h; cases hw
  | wrong => cases h; cases hw
  | parsed o =>
    have key : ∀ p l r, o.outputImage = some p → o.leftImage = some l → o.rightImage = some r →
        CommandLine.Output (.parsed o) path ∧ world.writable path = true ∧ out.exit = 0 ∧ out.err = [] := by
      intro p l r hp hl hr
      unfold program at h
      simp only [hp, hl, hr] at h
      split at h
      · cases h; cases hw
      · rcases handle_result h with ⟨w, h1, rfl⟩ | ⟨-, h2⟩
        · obtain ⟨rfl, h3⟩ := compute_result h1 hw
          exact ⟨⟨o, rfl, hp⟩, h3, rfl, rfl⟩
        · rw [h2] at hw; cases hw
    cases hp : o.outputImage with
    | none =>
      unfold program at h
      simp only [hp] at h
      split at h <;> try split at h
      all_goals (cases h; cases hw)
    | some p =>
      cases hl : o.leftImage with
      | none =>
        unfold program at h
        simp only [hp, hl] at h
        split at h <;> try split at h
        all_goals (cases h; cases hw)
      | some l =>
        cases hr : o.rightImage with
        | none =>
          unfold program at h
          simp only [hp, hl, hr] at h
          split at h <;> try split at h
          all_goals (cases h; cases hw)
        | some r => exact key p l r hp hl hr

/-- **C115**. Files other than the output are left as they are, whatever happens. -/
theorem C115_only_output {world : World F} {cl : CommandLine} {out : Outcome} (h : program world cl = .ok out) {path : Text}
    (hp : ¬ cl.Output path) : out.files world.file path = world.file path := by
  unfold Outcome.files
  cases hw : out.written with
  | none => rfl
  | some w =>
    obtain ⟨output, text⟩ := w
    refine if_neg ?_
    rintro rfl
    exact hp (program_written h hw).1

/-- The output is left as it is too, if the program reports anything to the error stream, or its exit status is not 0, or the file cannot be
opened for writing. -/
theorem C115_unchanged {world : World F} {cl : CommandLine} {out : Outcome} (h : program world cl = .ok out)
    (hfail : out.exit ≠ 0 ∨ out.err ≠ [] ∨ ∀ path, cl.Output path → world.writable path = false) : out.files world.file = world.file := by
  funext path
  unfold Outcome.files
  cases hw : out.written with
  | none => rfl
  | some w =>
    obtain ⟨output, text⟩ := w
    obtain ⟨h1, h2, h3, h4⟩ := program_written h hw
    rcases hfail with hf | hf | hf
    · exact (hf h3).elim
    · exact (hf h4).elim
    · rw [hf _ h1] at h2; cases h2

theorem thrown_ok {memory : Memory} {α : Type} {m : M α} {a : α} (h : Limited.thrown memory m = .ok a) : m = .ok a := by
  unfold Limited.thrown at h
  split at h
  · split at h <;> cases h
  · exact h

/-- The same if anything else fails: reading of files, allocations. -/
theorem C115_troubled {memory : Memory} {faultLeft faultRight : Fault} {world : World F} {cl : CommandLine} {out : Outcome}
    (h : Troubled.program memory faultLeft faultRight world cl = .ok out) :
    (∀ path, ¬ cl.Output path → out.files world.file path = world.file path) ∧
    (out.exit ≠ 0 ∨ out.err ≠ [] → out.files world.file = world.file) := by
  have key : ∀ path text, out.written = some (path, text) → cl.Output path ∧ out.exit = 0 ∧ out.err = [] := by
    intro path text hw
    unfold Troubled.program at h
    split at h
    · cases h; cases hw
    · split at h
      · rename_i o
        split at h
        · rename_i p l r hp hl hr
          split at h
          · obtain ⟨h1, -, h2⟩ := program_written h hw
            exact ⟨h1, h2⟩
          · rcases handle_result h with ⟨w, h1, rfl⟩ | ⟨-, h2⟩
            · replace h1 := thrown_ok h1
              unfold Troubled.compute at h1
              obtain ⟨g, -, h1⟩ := bind_eq_ok h1
              obtain ⟨im, -, h1⟩ := bind_eq_ok h1
              obtain ⟨t, -, h1⟩ := bind_eq_ok h1
              cases h1
              cases hp' : world.writable p with
              | false => simp [hp'] at hw
              | true =>
                simp only [hp', if_true, Option.some.injEq, Prod.mk.injEq] at hw
                exact ⟨⟨o, rfl, hw.1 ▸ hp⟩, rfl, rfl⟩
            · rw [h2] at hw; cases hw
        · obtain ⟨h1, -, h2⟩ := program_written h hw
          exact ⟨h1, h2⟩
      · obtain ⟨h1, -, h2⟩ := program_written h hw
        exact ⟨h1, h2⟩
  constructor
  · intro path hp
    unfold Outcome.files
    cases hw : out.written with
    | none => rfl
    | some w =>
      obtain ⟨output, text⟩ := w
      refine if_neg ?_
      rintro rfl
      exact hp (key _ _ hw).1
  · intro hfail
    funext path
    unfold Outcome.files
    cases hw : out.written with
    | none => rfl
    | some w =>
      obtain ⟨output, text⟩ := w
      obtain ⟨-, h3, h4⟩ := key _ _ hw
      exact (hfail.elim (fun hf => hf h3) fun hf => hf h4).elim

/-! ## Only the inputs are read -/

omit [FloatOps F] in
theorem readImage_on {world : World F} {file file' : Text → Option Text} {path : Text} (h : file path = file' path) :
    readImage (world.on file) path = readImage (world.on file') path := by
  unfold readImage World.on
  simp only [h]

/-- Only the two images are read. -/
theorem C115_only_inputs (world : World F) {cl : CommandLine} {file file' : Text → Option Text}
    (h : ∀ path, cl.Input path → file path = file' path) : program (world.on file) cl = program (world.on file') cl := by
  cases cl with
  | repeated => rfl
  | wrong => rfl
  | parsed o =>
    obtain ⟨help, parallel, l, r, p, levels, smoothness, cleanness⟩ := o
    cases p with
    | none => rfl
    | some p =>
      cases l with
      | none => rfl
      | some l =>
        cases r with
        | none => rfl
        | some r =>
          have e1 := readImage_on (world := world) (h l ⟨_, rfl, .inl rfl⟩)
          have e2 := readImage_on (world := world) (h r ⟨_, rfl, .inr rfl⟩)
          have e3 : ∀ o label, compute (world.on file) o label l r p = compute (world.on file') o label l r p := by
            intro o label
            unfold compute readGraph
            rw [e1, e2]
            rfl
          unfold program
          simp only [e3]
          rfl

/-- The program can be executed again: if the output is not one of the inputs, then the second execution in the same circumstances has the
same outcome, and files are the same after it. -/
theorem C115_again (world : World F) {cl : CommandLine} {file : Text → Option Text} {out : Outcome}
    (h : program (world.on file) cl = .ok out) (hdiff : ∀ path, cl.Input path → ¬ cl.Output path) :
    program (world.on (out.files file)) cl = .ok out ∧ out.files (out.files file) = out.files file := by
  constructor
  · rw [← h]
    exact C115_only_inputs world fun path hp => (C115_only_output h (hdiff path hp) : out.files file path = file path)
  · funext path
    unfold Outcome.files
    cases out.written with
    | none => rfl
    | some w =>
      obtain ⟨output, text⟩ := w
      simp only
      split <;> rfl

/-- It does not matter which file is the output, in particular it may be one of the inputs: they have been read by then. -/
theorem C115_any_output (world : World F) {o : Options} {p q : Text} {out : Outcome} (hp : o.outputImage = some p)
    (hwr : world.writable p = world.writable q) (hroom : world.room p = world.room q) (h : program world (.parsed o) = .ok out) :
    program world (.parsed { o with outputImage := some q }) = .ok { out with written := out.written.map fun w => (q, w.2) } := by
  obtain ⟨help, parallel, l, r, p', levels, smoothness, cleanness⟩ := o
  cases hp
  cases l with
  | none => cases h; rfl
  | some l =>
    cases r with
    | none => cases h; rfl
    | some r =>
      generalize ho : (⟨help, parallel, some l, some r, some p, levels, smoothness, cleanness⟩ : Options) = o at h
      have h' : (match chooseParallelism world o.parallel with
        | none => .ok { exit := 1, err := [.unexpected "`parallel` cannot be"] }
        | some (out, label) => handle out (compute world o label l r p)) = (.ok out : M Outcome) := by rw [← h, ← ho]; rfl
      have goal : program world (.parsed { o with outputImage := some q }) = match chooseParallelism world o.parallel with
        | none => .ok { exit := 1, err := [.unexpected "`parallel` cannot be"] }
        | some (out, label) => handle out (compute world { o with outputImage := some q } label l r q) := by rw [← ho]; rfl
      rw [goal]
      clear goal h
      rename' h' => h
      cases hc : chooseParallelism world o.parallel with
      | none => simp only [hc] at h ⊢; cases h; rfl
      | some c =>
        obtain ⟨ms, label⟩ := c
        simp only [hc] at h ⊢
        have key : compute world { o with outputImage := some q } label l r q =
            (compute world o label l r p).map fun w => w.map fun v => (q, v.2) := by
          unfold compute
          rw [show readGraph world { o with outputImage := some q } l r = readGraph world o l r from rfl]
          cases readGraph world o l r with
          | error e => rfl
          | ok g =>
            simp only [bind_ok]
            cases Par.labeledMap world.solve label g with
            | error e => rfl
            | ok im =>
              simp only [bind_ok]
              cases writePgm (some im) with
              | error e => rfl
              | ok text =>
                simp only [bind_ok, World.stored, hwr, hroom]
                show Except.ok _ = Except.ok _
                congr 1
                cases world.writable q <;> rfl
        rw [key]
        cases hm : compute world o label l r p with
        | ok w => rw [hm] at h; cases h; rfl
        | error e =>
          rw [hm] at h
          have hn := handle_error h
          show handle ms (.error e) = _
          rw [h]
          cases out
          cases hn
          rfl

/-! ## Several executions -/

/-- Files that are not outputs of any of the executions are as they were. -/
theorem C115_session {runs : List (World F × CommandLine)} {file file' : Text → Option Text} (h : session runs file = .ok file') {path : Text}
    (hp : ∀ run ∈ runs, ¬ run.2.Output path) : file' path = file path := by
  induction runs generalizing file with
  | nil => cases h; rfl
  | cons run rest ih =>
    obtain ⟨world, cl⟩ := run
    unfold session at h
    obtain ⟨out, h1, h2⟩ := bind_eq_ok h
    rw [ih h2 fun run hr => hp run (List.mem_cons_of_mem _ hr)]
    exact C115_only_output h1 (hp _ List.mem_cons_self)

/-- A file of a session is what it was, or what one of the executions has written: that execution had this file as its output and ended with
status 0 and an empty error stream. -/
theorem C115_origin {runs : List (World F × CommandLine)} {file file' : Text → Option Text} (h : session runs file = .ok file') (path : Text) :
    file' path = file path ∨ ∃ run ∈ runs, ∃ (before : Text → Option Text) (out : Outcome) (text : Text),
      program (run.1.on before) run.2 = .ok out ∧ out.written = some (path, text) ∧ out.exit = 0 ∧ out.err = [] ∧ file' path = some text := by
  induction runs generalizing file with
  | nil => cases h; exact .inl rfl
  | cons run rest ih =>
    obtain ⟨world, cl⟩ := run
    unfold session at h
    obtain ⟨out, h1, h2⟩ := bind_eq_ok h
    rcases ih h2 with h3 | ⟨run, hr, h3⟩
    · rw [h3]
      cases hw : out.written with
      | none => exact .inl (by unfold Outcome.files; rw [hw])
      | some w =>
        obtain ⟨output, text⟩ := w
        by_cases e : path = output
        · subst e
          obtain ⟨-, -, h4, h5⟩ := program_written h1 hw
          refine .inr ⟨_, List.mem_cons_self, file, out, text, h1, hw, h4, h5, ?_⟩
          unfold Outcome.files
          rw [hw]
          exact if_pos rfl
        · refine .inl ?_
          unfold Outcome.files
          rw [hw]
          exact if_neg e
    · exact .inr ⟨run, List.mem_cons_of_mem _ hr, h3⟩

/-- Two executions may change places if they have different outputs and the output of none of them is an input of the other one. -/
theorem C115_order {a b : World F × CommandLine} {rest : List (World F × CommandLine)} {file file' : Text → Option Text}
    (hab : ∀ path, a.2.Output path → ¬ b.2.Output path ∧ ¬ b.2.Input path) (hba : ∀ path, b.2.Output path → ¬ a.2.Input path)
    (h : session (a :: b :: rest) file = .ok file') : session (b :: a :: rest) file = .ok file' := by
  obtain ⟨wa, ca⟩ := a
  obtain ⟨wb, cb⟩ := b
  simp only at hab hba
  unfold session at h ⊢
  obtain ⟨oa, h1, h⟩ := bind_eq_ok h
  unfold session at h ⊢
  obtain ⟨ob, h2, h⟩ := bind_eq_ok h
  have h2' : program (wb.on file) cb = .ok ob := by
    rw [← h2]
    exact C115_only_inputs wb fun path hp => (C115_only_output h1 fun ho => (hab path ho).2 hp : oa.files file path = file path).symm
  have h1' : program (wa.on (ob.files file)) ca = .ok oa := by
    rw [← h1]
    exact C115_only_inputs wa fun path hp => (C115_only_output h2' fun ho => hba path ho hp : ob.files file path = file path)
  rw [h2', bind_ok, h1', bind_ok]
  have e : oa.files (ob.files file) = ob.files (oa.files file) := by
    funext path
    unfold Outcome.files
    cases hwa : oa.written with
    | none => rfl
    | some v =>
      cases hwb : ob.written with
      | none => rfl
      | some w =>
        obtain ⟨p, t⟩ := v
        obtain ⟨q, u⟩ := w
        have hne : p ≠ q := by
          rintro rfl
          exact (hab p (program_written h1 hwa).1).1 (program_written h2 hwb).1
        simp only
        by_cases e1 : path = p
        · rw [if_pos e1, if_neg (fun e2 => hne (e1.symm.trans e2)), if_pos e1]
        · rw [if_neg e1, if_neg e1]
  rw [e]
  exact h

end

/-! ## Maps as images -/

/-- A file that contains an image written by the program is read as this image. -/
theorem readImage_written {F : Type} {world : World F} {path text : Text} {im : Image} (hf : world.file path = some text)
    (h : Ok (readPgm world.memory none (.opened text)) fun q => q.1.fail = false ∧ q.2 = some im) : readImage world path = .ok im := by
  obtain ⟨⟨s, i⟩, h1, h2, h3⟩ := h
  simp only at h2 h3
  unfold readImage
  simp only [hf, h1, bind_ok, h2, h3]
  rfl

/-- A map written by the program with `double` can be given to the program as both images, with the same weights and any technology. The program
then writes a map of zeros of the same size, with the exceptions known from C101. There may be other threads, schedules and devices in
the second execution. -/
theorem C115_map_as_image {world world' : World Double} {B B' : Nat} {jobs jobs' : UInt64} {allowed : (Nat → Nat) → Prop}
    {file : Text → Option Text} (hw : (world.on file).Reasonable jobs) (hruns : (world.on file).Runs B jobs) (hcpu : (world.on file).CpuOnly)
    {o : Options} {out : Outcome} (h : program (world.on file) (.parsed o) = .ok out) {path text : Text} (hwr : out.written = some (path, text))
    (hlev : ∀ left levels, o.leftImage.map (readImage (world.on file)) = some (.ok left) → levelsOption left o.disparityLevels = .ok levels → levels ≤ 65536)
    (hw' : (world'.on (out.files file)).Reasonable jobs') (hs' : world'.solve.Possible B' jobs')
    (hdev' : (world'.on (out.files file)).Devices (Ieee.convert : Double → Single) allowed) (hmem : world'.memory = world.memory)
    (parallel : Option Text) (output : Text) :
    ∃ g : DisparityGraph Double, (∃ im : Image, writePgm (some im) = .ok text ∧ g.right = im ∧ g.left = im ∧ g.disparityLevels = im.width ∧
      ∀ l left, o.leftImage = some l → readImage (world.on file) l = .ok left → im.width = left.width ∧ im.height = left.height) ∧
      (world'.on (out.files file)).Finds Single B' jobs' allowed
        { o with leftImage := some path, rightImage := some path, outputImage := some output, disparityLevels := none, parallel := parallel } output
        (MapOf g fun _ _ => 0) := by
  obtain ⟨e1, e2, o', l, r, left, right, levels, c, s, im, q1, q2, q3, q4, q5, q6, q7, q8, q9, q10, q11, q12, q13, q14, t, q15⟩ :=
    C91_written_file hw hruns hcpu _ _ h path text hwr
  cases q1
  have hlv := hlev left levels (by rw [q3]; exact congrArg some q5) q7
  have hfile : (world'.on (out.files file)).file path = some text := by
    show out.files file path = some text
    unfold Outcome.files
    rw [hwr]
    exact if_pos rfl
  have hread : readImage (world'.on (out.files file)) path = .ok im := by
    refine readImage_written hfile ?_
    rw [show (world'.on (out.files file)).memory = (world.on file).memory from hmem]
    exact q12 hlv
  obtain ⟨tl, -, pl, sl⟩ := readImage_ok q5
  obtain ⟨tr, -, pr, sr⟩ := readImage_ok q6
  have hl := pgmOf_sized pl sl hw.memory
  have hr := pgmOf_sized pr sr hw.memory
  obtain ⟨a1, a2, a3, a4, a5, a6, a7, a8, a9, a10⟩ := q10
  have hai : AcceptedInput left right levels (1 : Int) 1 := ⟨a1, a2, a3, a4, a5, a6, a7, by decide, by decide, by decide⟩
  have hsm : left.data.size < 2147483648 := sl.trans_lt hw.memory
  obtain ⟨f1, f2, f3⟩ := fresh_limits (F := Int) (world := ⟨fun _ => none, fun _ => false, 0, fun _ _ => .error .ub, none, none, fun _ => none⟩)
    ⟨by decide, hw.jobs_pos, hw.jobs_small, fun _ => rfl⟩ hai hl hr hsm
  have hsz := q15.sized
  obtain ⟨m1, m2⟩ := SizedMap.meaningful (g := freshGraph left right levels (1 : Int) 1) f1 f3 ⟨hsz.width, hsz.height, hsz.levels, hsz.size, hsz.below⟩
  have ha : AcceptedInput im im im.width (ofNat c.toNat : Double) (ofNat s.toNat) :=
    ⟨m2, m2, by rw [q13]; omega, le_rfl, rfl, rfl, rfl, a8, a9, a10⟩
  have hg : readGraph (world'.on (out.files file))
      { o with leftImage := some path, rightImage := some path, outputImage := some output, disparityLevels := none, parallel := parallel } path path =
      .ok (freshGraph im im im.width (ofNat c.toNat) (ofNat s.toNat)) := by
    unfold readGraph
    simp only [hread, bind_ok, levelsOption, weightOption_eq, q8, q9]
    show mkDisparityGraph im im im.width _ _ = _
    exact (mkDisparityGraph_mk m1 m1).1 ha
  refine ⟨_, ⟨im, q11, rfl, rfl, rfl, fun l' left' hl' hr' => ?_⟩, C101_equal_images hw' hs' hdev' rfl rfl rfl hg rfl⟩
  cases q3.symm.trans hl'
  cases q5.symm.trans hr'
  exact ⟨q13, q14⟩

/-! ## Non-vacuity -/

/-- All files can be written, one worker. -/
def filesWorld : World Int := { smallWorld with writable := fun _ => true }

/-- Options for two files. -/
def filesOptions (left right output : String) : Options :=
  { leftImage := some (bytes left), rightImage := some (bytes right), outputImage := some (bytes output) }

/-- Outcomes of three executions: the first one finds a map and writes it; the second one uses it for both images; the third one uses images
with different maximal values and changes nothing. -/
def filesFirst : Outcome := { exit := 0, written := some (bytes "o", bytes "P2\n3 2\n2\n1 1 0\n1 1 0\n") }
@[inherit_doc filesFirst] def filesSecond : Outcome := { exit := 0, written := some (bytes "z", bytes "P2\n3 2\n3\n0 0 0\n0 0 0\n") }
@[inherit_doc filesFirst] def filesThird : Outcome := { exit := 0, err := [.invalidArgument "Maximal intensity of the images should be the same."] }

theorem files_first : program (filesWorld.on filesWorld.file) (.parsed { filesOptions "l" "r" "o" with disparityLevels := some (bytes "2") }) =
    .ok filesFirst := by decide +kernel

theorem files_second : program (filesWorld.on (filesFirst.files filesWorld.file)) (.parsed (filesOptions "o" "o" "z")) = .ok filesSecond := by
  decide +kernel

theorem files_third : program (filesWorld.on (filesSecond.files (filesFirst.files filesWorld.file))) (.parsed (filesOptions "l" "o" "z")) =
    .ok filesThird := by decide +kernel

/-- A session. -/
example : ∃ file, session [(filesWorld, .parsed { filesOptions "l" "r" "o" with disparityLevels := some (bytes "2") }),
      (filesWorld, .parsed (filesOptions "o" "o" "z")), (filesWorld, .parsed (filesOptions "l" "o" "z"))] filesWorld.file = .ok file ∧
    [file (bytes "l"), file (bytes "o"), file (bytes "z"), file (bytes "x")] =
      [some (bytes "P2 3 2 3 1 2 3 0 1 2"), some (bytes "P2\n3 2\n2\n1 1 0\n1 1 0\n"), some (bytes "P2\n3 2\n3\n0 0 0\n0 0 0\n"), none] := by
  refine ⟨filesThird.files (filesSecond.files (filesFirst.files filesWorld.file)), ?_, by decide +kernel⟩
  unfold session
  rw [files_first, bind_ok]
  unfold session
  rw [files_second, bind_ok]
  unfold session
  rw [files_third, bind_ok]
  rfl

/-- The assumption of `C115_again` is necessary: if the output is the left image, the second execution has another image to read. -/
theorem C115_same_file_twice : ∃ out out', program filesWorld (.parsed (filesOptions "l" "r" "l")) = .ok out ∧
    program (filesWorld.on (out.files filesWorld.file)) (.parsed (filesOptions "l" "r" "l")) = .ok out' ∧
    out.written ≠ none ∧ out'.written ≠ none ∧ out'.files (out.files filesWorld.file) (bytes "l") ≠ out.files filesWorld.file (bytes "l") := by
  refine ⟨{ exit := 0, written := some (bytes "l", bytes "P2\n3 2\n3\n1 1 0\n1 1 0\n") },
    { exit := 0, written := some (bytes "l", bytes "P2\n3 2\n3\n0 0 0\n0 0 0\n") }, ?_, ?_, by decide, by decide, ?_⟩
  · decide +kernel
  · decide +kernel
  · decide +kernel

theorem files_program : program (imagesWorld "P2 3 2 9 0 1 1 1 0 2" "P2 3 2 9 1 0 1 0 0 2" (fun _ => solveCsp 1) none)
    (.parsed (imagesOptions "2" "1" "1" none)) = .ok { exit := 0, written := some (bytes "o", bytes "P2\n3 2\n2\n1 0 0\n1 0 0\n") } := by decide +kernel

/-- The assumptions of `C115_map_as_image`. -/
example : ∃ world' : World Double, ∃ g : DisparityGraph Double, g.w = 3 ∧ g.h = 2 ∧
    world'.Finds Single 64 1 (fun _ => True)
      { imagesOptions "2" "1" "1" none with leftImage := some (bytes "o"), rightImage := some (bytes "o"), outputImage := some (bytes "z"), disparityLevels := none, parallel := none } (bytes "z") (MapOf g fun _ _ => 0) := by
  obtain ⟨solve, h1, -⟩ := seqSolver Double 1
  obtain ⟨g, ⟨im, e1, e2, -, -, e3⟩, h2⟩ := C115_map_as_image (world := imagesWorld "P2 3 2 9 0 1 1 1 0 2" "P2 3 2 9 1 0 1 0 0 2" (fun _ => solveCsp 1) none)
    (world' := imagesWorld "" "" solve none) (B := 64) (B' := 64) (jobs := 1) (jobs' := 1) (allowed := fun _ => True)
    (file := (imagesWorld "P2 3 2 9 0 1 1 1 0 2" "P2 3 2 9 1 0 1 0 0 2" (fun _ => solveCsp 1) none).file)
    (imagesWorld_reasonable _ _ _ _ (.inl rfl)) (.inr rfl) ⟨rfl, rfl⟩ files_program rfl
    (fun left levels _ h => by
      have : stoul (bytes "2") = .ok 2 := by decide +kernel
      cases this.symm.trans h
      decide)
    ⟨show 1000 < 2147483648 by decide, by decide, by decide, fun _ => rfl⟩ h1 ⟨fun f hf => (by cases hf), fun f hf => (by cases hf)⟩ rfl none (bytes "z")
  obtain ⟨e4, e5⟩ := e3 (bytes "l") (img 3 2 9 [0, 1, 1, 1, 0, 2]) rfl (by decide +kernel)
  exact ⟨_, g, by show g.right.width.toNat = 3; rw [e2, e4]; rfl, by show g.right.height.toNat = 2; rw [e2, e5]; rfl, h2⟩

end SP
