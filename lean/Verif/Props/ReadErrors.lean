import Verif.Props.DoubleRefuted
import Verif.Lemmas.ReadErrors
/-!
# C107: read errors

If a file cannot be read to its end, nothing is written, and a message is printed.
-/
namespace SP
open FloatOps

/-- Reading with an error: the failure is noticed. Nothing is undefined that is not undefined without the error, except for a header with
`2^64` pixels or more. -/
theorem C107_stream (cut : Text → Text) (limit : Nat) (held : Option Image) (text : Text) :
    (∃ r, Faulty.readPgm (some cut) limit held (.opened text) = .ok r ∧ r.1.fail = true) ∨
    (∃ x, Faulty.readPgm (some cut) limit held (.opened text) = .error (.exc x)) ∨
    (∃ e, Faulty.readPgm (some cut) limit held (.opened text) = .error e ∧
      (readPgm limit held (.opened text) = .error e ∨ ¬ HarmlessHeader (instructions text))) := by
  rcases Faulty.pgm_follows (cut := cut) limit held text with ⟨h, hr⟩ | h
  · cases hm : Faulty.readPgm (some cut) limit held (.opened text) with
    | error e => exact .inr (.inr ⟨e, rfl, .inl (h ▸ hm)⟩)
    | ok r => exact .inl ⟨r, rfl, (hr r hm).2⟩
  · cases hm : Faulty.readPgm (some cut) limit held (.opened text) with
    | error e =>
      rw [hm] at h
      rcases h with ⟨x, rfl⟩ | ⟨rfl, w, h, m, hh, hw⟩
      · exact .inr (.inl ⟨x, rfl⟩)
      · exact .inr (.inr ⟨_, rfl, .inr fun hharm => by have := hharm w h m hh; omega⟩)
    | ok r =>
      rw [hm] at h
      exact .inl ⟨r, rfl, h.1⟩

variable {F : Type} [FloatOps F] {world : World F}

/-- Reading of an image with an error ends with an exception. -/
theorem C107_image (cut : Text → Text) {path : Text} (hh : ∀ text, world.file path = some text → HarmlessFile text) :
    ∃ x, Faulty.readImage (some cut) world path = .error (.exc x) := by
  unfold Faulty.readImage
  cases hf : world.file path with
  | none => exact ⟨_, rfl⟩
  | some text =>
    dsimp only
    obtain ⟨h1, h2⟩ := hh text hf
    rcases C107_stream cut world.memory none text with ⟨⟨s, im⟩, e, h⟩ | ⟨x, e⟩ | ⟨e, h, h' | h'⟩
    · rw [e]
      refine ⟨.invalidArgument "File is not a correct plain PGM image.", ?_⟩
      simp only [bind_ok, show s.fail = true from h, if_true]
      rfl
    · exact ⟨x, by rw [e]; rfl⟩
    · have hsafe := C53_read_safe_partial world.memory none text h2 h1
      have hexit := readPgm_noExit world.memory text
      cases e with
      | ub => exact absurd h' hsafe.1
      | nonterm => exact absurd h' hsafe.2
      | exit => exact absurd h' hexit
      | exc x => exact ⟨x, by rw [h]; rfl⟩
    · exact absurd h2 h'

/-- Without errors it is the same program. -/
theorem C107_no_error (cl : CommandLine) : Faulty.program none none world cl = program world cl := by
  have h : ∀ path, Faulty.readImage none world path = readImage world path := by
    intro path
    unfold Faulty.readImage readImage
    simp only [Faulty.readPgm_none]
    rfl
  have hc : ∀ o label l r output, Faulty.compute none none world o label l r output = compute world o label l r output := by
    intro o label l r output
    unfold Faulty.compute compute Faulty.readGraph readGraph
    simp only [h]
  unfold Faulty.program program
  simp only [hc]
  rfl

/-- **C107**. If one of the files cannot be read to its end because of an error, the program prints a message and writes nothing. -/
theorem C107_read_error (left right : Fault) (h : left ≠ none ∨ right ≠ none)
    (hfiles : ∀ path text, world.file path = some text → HarmlessFile text) (cl : CommandLine) :
    ∃ out, Faulty.program left right world cl = .ok out ∧ out.written = none ∧ out.err ≠ [] := by
  cases cl with
  | repeated => exact ⟨_, rfl, rfl, by simp⟩
  | wrong => exact ⟨_, rfl, rfl, by simp⟩
  | parsed o =>
    unfold Faulty.program
    simp only
    rcases ho : o.outputImage with _ | output <;> rcases hl : o.leftImage with _ | l <;> rcases hr : o.rightImage with _ | r <;>
      try exact ⟨_, rfl, rfl, by simp⟩
    simp only
    cases hc : chooseParallelism world o.parallel with
    | none => exact ⟨_, rfl, rfl, by simp⟩
    | some q =>
      obtain ⟨out, label⟩ := q
      have hx : ∃ x, Faulty.compute left right world o label l r output = .error (.exc x) := by
        unfold Faulty.compute Faulty.readGraph
        cases left with
        | some cut =>
          obtain ⟨x, e⟩ := C107_image cut (hfiles l)
          exact ⟨x, by rw [e]; rfl⟩
        | none =>
          cases right with
          | none => exact absurd h (by simp)
          | some cut =>
            obtain ⟨x, e⟩ := C107_image cut (hfiles r)
            have hsafe := readImage_safe (world := world) (hfiles l)
            have hexit := readImage_noExit world l
            have hn : Faulty.readImage none world l = readImage world l := by
              unfold Faulty.readImage readImage
              simp only [Faulty.readPgm_none]
              rfl
            rw [hn]
            cases hi : readImage world l with
            | ok im => exact ⟨x, by rw [bind_ok, e]; rfl⟩
            | error e =>
              cases e with
              | ub => exact absurd hi hsafe.1
              | nonterm => exact absurd hi hsafe.2
              | exit => exact absurd hi hexit
              | exc x => exact ⟨x, rfl⟩
      obtain ⟨x, e⟩ := hx
      simp only
      rw [e]
      cases x <;> exact ⟨_, rfl, rfl, by simp [handle]⟩

/-- A directory instead of the left image: it is opened, but nothing can be read. -/
theorem C107_directory (cut : Text → Text) (right : Fault) {o : Options} {l r output : Text} (ho : o.outputImage = some output)
    (hl : o.leftImage = some l) (hr : o.rightImage = some r) {out : List Message} {label : Labeler F}
    (hp : chooseParallelism world o.parallel = some (out, label)) (hf : world.file l = some []) :
    Faulty.program (some cut) right world (.parsed o) =
      .ok { exit := 0, out := out, err := [.invalidArgument "File is not a correct plain PGM image."] } := by
  unfold Faulty.program Faulty.compute Faulty.readGraph Faulty.readImage
  simp only [ho, hl, hr, hp, hf]
  rfl

/-! ## Examples -/

-- the last number is cut; a file that ends there is an image
example : Faulty.program (some fun t => t.take 1) none (imagesWorld "P2 2 1 99 10 20" "P2 2 1 99 10 20" (fun _ => solveCsp 1) none)
      (.parsed (imagesOptions "2" "1" "1" none)) =
    .ok { exit := 0, err := [.invalidArgument "File is not a correct plain PGM image."] } ∧
    ∃ text, Faulty.program none none (imagesWorld "P2 2 1 99 10 20" "P2 2 1 99 10 20" (fun _ => solveCsp 1) none)
      (.parsed (imagesOptions "2" "1" "1" none)) = .ok { exit := 0, written := some (bytes "o", text) } := by
  refine ⟨by decide +kernel, bytes "P2\n2 1\n2\n0 0\n", by decide +kernel⟩

-- an error after spaces at the end of the right file
example : Faulty.program none (some id) (imagesWorld "P2 2 1 99 10 20" "P2 2 1 99 10 20\n \n" (fun _ => solveCsp 1) none)
      (.parsed (imagesOptions "2" "1" "1" none)) =
    .ok { exit := 0, err := [.invalidArgument "File is not a correct plain PGM image."] } := by decide +kernel

end SP
