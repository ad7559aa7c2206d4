import Verif.Lemmas.PgmSpec
import Verif.Spec.FloatInstances
/-!
# Properties C46–C53: reading and writing of images
-/
namespace SP

/-- The outcome of reading a text, via the specification. -/
theorem read_outcome (limit : Nat) (held : Option Image) (text : Text) :
    Sim (fun r q => r.1.fail = q.1 ∧ r.2 = q.2) (readPgm limit held (.opened text)) (readSpec limit held (instructions text)) :=
  readPgm_mk limit held (opened_ahead text)

/-- Two results of reading: the same `failbit` and the same image. -/
def SameRead (r r' : IStream × Option Image) : Prop := r.1.fail = r'.1.fail ∧ r.2 = r'.2

/-! ## Writing -/

theorem numberOf_decimal (v : UInt64) : NumberOf (decimal v) v := (numberOf_iff (decimal_instruction v)).1 (stoul_decimal v)

theorem forall₂_decimal (vs : List UInt64) : List.Forall₂ NumberOf (vs.map decimal) vs := by
  induction vs with
  | nil => exact .nil
  | cons v vs ih => exact .cons (numberOf_decimal v) ih

/-- **C46**. A valid image with the maximal value at most 65536 is written, and reading the text back (into a reader that holds
anything, with enough memory) returns the same image and leaves no `failbit`. -/
theorem C46_round_trip (image : Image) (hs : image.Sized) (hm : image.Meaningful) (hmax : image.maxValue ≤ 65536)
    (limit : Nat) (hlim : image.data.size ≤ limit) (held : Option Image) :
    Ok (writePgm (some image)) fun text =>
      Ok (readPgm limit held (.opened text)) fun r => r.1.fail = false ∧ r.2 = some image := by
  refine (writePgm_mk hs hm).mono ?_
  rintro text ⟨h1, -⟩
  have hp : PgmOf (instructions text) image := by
    rw [h1.instructions]
    refine ⟨_, _, _, _, rfl, numberOf_decimal _, numberOf_decimal _, numberOf_decimal _, hmax, hs.size, ?_⟩
    rw [List.take_of_length_le (by simp)]
    exact forall₂_decimal _
  have hr := read_outcome limit held text
  rw [readSpec_accept held (fun t ht => instructions_valid ht) hp (by have := hs.small; omega) hlim] at hr
  obtain ⟨r, e, h⟩ := hr.ok_right
  exact ⟨r, e, h⟩

example : (img 3 2 5 [1, 2, 3, 4, 5, 0]).Sized ∧ (img 3 2 5 [1, 2, 3, 4, 5, 0]).Meaningful :=
  ⟨⟨rfl, by decide⟩, by decide, by decide, by decide, by decide⟩
example : writePgm (some (img 3 2 5 [1, 2, 3, 4, 5, 0])) = .ok (bytes "P2\n3 2\n5\n1 2 3\n4 5 0\n") := by decide +kernel

/-- The bound is needed: the program writes valid images that it refuses to read. -/
theorem C46_larger_values_not_read_back :
    (img 1 1 65537 [0]).Sized ∧ (img 1 1 65537 [0]).Meaningful ∧
    Ok (writePgm (some (img 1 1 65537 [0]))) fun text =>
      Ok (readPgm 1 none (.opened text)) fun r => r.1.fail = true ∧ r.2 = none := by
  refine ⟨⟨rfl, by decide⟩, ⟨by decide, by decide, by decide, by decide⟩, bytes "P2\n1 1\n65537\n0\n", by decide +kernel, ?_⟩
  exact ⟨({ rest := bytes "\n0\n", eof := false, fail := true }, none), by decide +kernel, rfl, rfl⟩

/-- **C47**. Lines of a written image with the maximal value at most 65536 are not longer than 70 characters. -/
theorem C47_short_lines (image : Image) (hs : image.Sized) (hm : image.Meaningful) (hmax : image.maxValue ≤ 65536) :
    Ok (writePgm (some image)) fun text => ∀ l ∈ lines text, l.length ≤ 70 := by
  refine (writePgm_mk hs hm).mono ?_
  rintro text ⟨-, h2⟩
  exact (h2 (UInt64.le_iff_toNat_le.1 hmax)).lines

/-- A line of eleven numbers of five digits has 65 characters, and the twelfth number begins a new line. -/
example : (writePgm (some (img 12 1 65536 (List.replicate 12 65536)))).map (fun t => (lines t).map List.length) =
    .ok [2, 4, 5, 65, 5, 0] := by decide +kernel

/-- The bound is needed: a valid image with larger values has a longer line. -/
theorem C47_larger_values_long_line :
    (img 11 1 9999999 (List.replicate 11 9999999)).Meaningful ∧
    Ok (writePgm (some (img 11 1 9999999 (List.replicate 11 9999999)))) fun text => ∃ l ∈ lines text, 70 < l.length := by
  refine ⟨⟨by decide, by decide, by decide, by decide⟩, _, rfl, ?_⟩
  decide +kernel

/-- **C48**. Without an image nothing is written. -/
theorem C48_absent_image : writePgm none = .ok [] := rfl

/-- **C48**. Nothing is written for an image that is not valid. -/
theorem C48_invalid_image (image : Image) (hs : image.Sized) (hm : ¬ image.Meaningful) :
    writePgm (some image) = .ok [] := by
  obtain ⟨b, e, h⟩ := imageValid_mk image hs.size hs.small
  have hb : b = false := by
    cases b
    · rfl
    · exact absurd (h.1 rfl) hm
  unfold writePgm
  simp only
  rw [e, bind_ok, hb]
  rfl

/-- And something is written for every valid image. -/
theorem C48_valid_image_written (image : Image) (hs : image.Sized) (hm : image.Meaningful) :
    Ok (writePgm (some image)) fun text => text ≠ [] := by
  refine (writePgm_mk hs hm).mono ?_
  rintro text ⟨h1, -⟩ rfl
  have := h1.instructions
  simp [imageInstructions] at this

example : (img 1 1 1 [2]).Sized ∧ ¬ (img 1 1 1 [2]).Meaningful := ⟨⟨rfl, by decide⟩, fun h => absurd h.2.2.2 (by decide)⟩

/-! ## Reading -/

/-- **C49**. The result of reading depends on the sequence of instructions only.

The full statement: it does not matter by which non-empty mixes of whitespace and comments the instructions are separated. It
holds for separators that begin with whitespace (and for any blank text in the beginning and in the end);
`C49_adjacent_comment_refuted` shows that it does not hold for a separator that begins with a comment. -/
theorem C49_layout_irrelevant_partial (limit : Nat) (held : Option Image) (ts : List Text) (text : Text) (h : Layout ts text) :
    Sim SameRead (readPgm limit held (.opened text)) (readPgm limit held (.opened (plain ts))) := by
  refine readPgm_sim ⟨ts, ?_, ?_⟩ limit held
  · have := opened_ahead text
    rwa [layout_instructions h] at this
  · have := opened_ahead (plain ts)
    rwa [plain_instructions h.valid] at this

/-- Any two layouts of the same instructions. -/
theorem C49_layouts_agree_partial (limit : Nat) (held : Option Image) (ts : List Text) (text text' : Text)
    (h : Layout ts text) (h' : Layout ts text') :
    Sim SameRead (readPgm limit held (.opened text)) (readPgm limit held (.opened text')) := by
  refine readPgm_sim ⟨ts, ?_, ?_⟩ limit held
  · have := opened_ahead text
    rwa [layout_instructions h] at this
  · have := opened_ahead text'
    rwa [layout_instructions h'] at this

example : Layout [bytes "P2", bytes "1", bytes "2"] (bytes "#a\nP2 #b\n\t1\n2 #c") := by
  have i1 : IsInstruction (bytes "P2") := ⟨by decide +kernel, by decide +kernel, by decide +kernel⟩
  have i2 : IsInstruction (bytes "1") := ⟨by decide +kernel, by decide +kernel, by decide +kernel⟩
  have i3 : IsInstruction (bytes "2") := ⟨by decide +kernel, by decide +kernel, by decide +kernel⟩
  have b1 : Blank (bytes "#a\n") := .comment (b := [97]) (by decide) .nil
  have b2 : Blank (bytes "#b\n\t") := .comment (b := [98]) (by decide) (.space (by decide) .nil)
  have b3 : FinalBlank (bytes "#c") := .inr ⟨[], [99], .nil, by decide, rfl⟩
  exact .lead (b := bytes "#a\n") b1 (.cons (c := 32) i1 (by decide) (.lead b2
    (.cons (c := 10) i2 (by decide) (.cons (c := 32) i3 (by decide) (.blank b3)))))

/-- **C49** is false as stated: a comment directly after an instruction changes the result. -/
theorem C49_adjacent_comment_refuted :
    Blank (bytes "#c\n") ∧
    Ok (readPgm 1 none (.opened (bytes "P2 1 1 1 0"))) (fun r => r.1.fail = false ∧ r.2 = some (img 1 1 1 [0])) ∧
    Ok (readPgm 1 none (.opened (bytes "P2#c\n1 1 1 0"))) (fun r => r.1.fail = true ∧ r.2 = none) := by
  refine ⟨.comment (b := [99]) (by decide) .nil, ?_, ?_⟩
  · exact ⟨({ rest := [], eof := true, fail := false }, some (img 1 1 1 [0])), by decide +kernel, rfl, rfl⟩
  · exact ⟨({ rest := bytes "\n1 1 1 0", eof := false, fail := true }, none), by decide +kernel, rfl, rfl⟩

/-- **C50**. If reading fails with `failbit`, the image held by the reader is the one held before.

The full statement has no other alternative. What is proved is that the only exception is a file with superfluous instructions
after a complete image, and the image is replaced by the one that was read; `C50_superfluous_refuted` is such a file. -/
theorem C50_failed_read_partial (limit : Nat) (held : Option Image) (text : Text) (r : IStream × Option Image)
    (h : readPgm limit held (.opened text) = .ok r) (hf : r.1.fail = true) :
    r.2 = held ∨ ∃ ts t rest im, instructions text = ts ++ t :: rest ∧ PgmOf ts im ∧ r.2 = some im := by
  have hr := read_outcome limit held text
  rw [h] at hr
  rcases readSpec_cases limit held (ts := instructions text) (fun t ht => instructions_valid ht) with
    ⟨e, -⟩ | ⟨e, -⟩ | ⟨e | e, -⟩ | ⟨e, -⟩ | ⟨im, -, e, -⟩ | ⟨ts, t, rest, im, h1, h2, ⟨e, -⟩ | ⟨e, -⟩⟩
  all_goals rw [e] at hr
  · exact .inl hr.2
  · exact hr.elim
  · exact hr.elim
  · exact hr.elim
  · exact hr.elim
  · have := hr.1
    rw [hf] at this
    cases this
  · exact hr.elim
  · exact .inr ⟨ts, t, rest, im, h1, h2, hr.2⟩

/-- **C50** is false as stated. -/
theorem C50_superfluous_refuted :
    Ok (readPgm 1 (some (img 1 1 7 [5])) (.opened (bytes "P2 1 1 1 0 x"))) fun r =>
      r.1.fail = true ∧ r.2 = some (img 1 1 1 [0]) :=
  ⟨({ rest := [], eof := false, fail := true }, some (img 1 1 1 [0])), by decide +kernel, rfl, rfl⟩

/-- **C51**. Reading a malformed file leaves `failbit` and the image held before.

The full statement has no assumptions about memory and about the size of numbers. It is false without them, see
`C51_too_large_refuted` (an exception) and `C53_wrapped_size_refuted` (undefined behaviour). -/
theorem C51_malformed_partial (limit : Nat) (held : Option Image) (text : Text) (h : Malformed (instructions text))
    (hbig : ∀ t ∈ instructions text, ¬ TooLarge t)
    (hmem : ∀ w h m, HeaderOf (instructions text) w h m → w.toNat * h.toNat ≤ limit ∧ w.toNat * h.toNat ≤ 1152921504606846975) :
    Ok (readPgm limit held (.opened text)) fun r => r.1.fail = true ∧ r.2 = held := by
  have hr := read_outcome limit held text
  rcases readSpec_cases limit held (ts := instructions text) (fun t ht => instructions_valid ht) with
    ⟨e, -⟩ | ⟨-, t, ht, h1⟩ | ⟨-, w, h, m, h1, h2⟩ | ⟨-, w, h, m, h1, h2⟩ | ⟨im, h1, -⟩ | ⟨ts, t, rest, im, h1, h2, -⟩
  · rw [e] at hr
    exact hr.ok_right
  · exact absurd h1 (hbig t ht)
  · have := hmem _ _ _ h1
    rw [mul_toNat (by omega)] at h2
    omega
  · have := hmem _ _ _ h1
    omega
  · have := h1.wellFormed (rest := []) (by rw [List.append_nil]; exact fun t ht => instructions_valid ht)
    rw [List.append_nil] at this
    exact absurd h this
  · rw [h1] at h
    exact absurd h (h2.wellFormed (by rw [← h1]; exact fun t ht => instructions_valid ht))

/-- A malformed file is never accepted, without any assumptions. -/
theorem C51_never_accepted (limit : Nat) (held : Option Image) (text : Text) (h : Malformed (instructions text))
    (r : IStream × Option Image) (hr : readPgm limit held (.opened text) = .ok r) : r.1.fail = true ∧ r.2 = held := by
  have ho := read_outcome limit held text
  rw [hr] at ho
  rcases readSpec_cases limit held (ts := instructions text) (fun t ht => instructions_valid ht) with
    ⟨e, -⟩ | ⟨e, -⟩ | ⟨e | e, -⟩ | ⟨e, -⟩ | ⟨im, h1, -⟩ | ⟨ts, t, rest, im, h1, h2, -⟩
  · rw [e] at ho
    exact ho
  · rw [e] at ho
    exact ho.elim
  · rw [e] at ho
    exact ho.elim
  · rw [e] at ho
    exact ho.elim
  · rw [e] at ho
    exact ho.elim
  · have := h1.wellFormed (rest := []) (by rw [List.append_nil]; exact fun t ht => instructions_valid ht)
    rw [List.append_nil] at this
    exact absurd h this
  · rw [h1] at h
    exact absurd h (h2.wellFormed (by rw [← h1]; exact fun t ht => instructions_valid ht))

/-- A file is accepted if and only if it is an image that fits the memory, and then the image is read. -/
theorem C51_accepted_exactly (limit : Nat) (held : Option Image) (text : Text) (o : Option Image) :
    (∃ s, readPgm limit held (.opened text) = .ok (s, o) ∧ s.fail = false) ↔
    ∃ im, o = some im ∧ PgmOf (instructions text) im ∧ im.data.size ≤ limit ∧ im.data.size ≤ 1152921504606846975 := by
  have hr := read_outcome limit held text
  constructor
  · rintro ⟨s, h1, h2⟩
    rw [h1] at hr
    rcases readSpec_cases limit held (ts := instructions text) (fun t ht => instructions_valid ht) with
      ⟨e, -⟩ | ⟨e, -⟩ | ⟨e | e, -⟩ | ⟨e, -⟩ | ⟨im, h3, e, h4, h5⟩ | ⟨ts, t, rest, im, -, -, ⟨e, -⟩ | ⟨e, -⟩⟩
    all_goals rw [e] at hr
    · have := hr.1; simp only at this; rw [h2] at this; cases this
    · exact hr.elim
    · exact hr.elim
    · exact hr.elim
    · exact hr.elim
    · exact ⟨im, hr.2, h3, h5, h4⟩
    · exact hr.elim
    · have := hr.1; simp only at this; rw [h2] at this; cases this
  · rintro ⟨im, rfl, h1, h2, h3⟩
    rw [readSpec_accept held (fun t ht => instructions_valid ht) h1 h3 h2] at hr
    obtain ⟨⟨s, o⟩, e, h4, h5⟩ := hr.ok_right
    simp only at h4 h5
    exact ⟨s, by rw [e, h5], h4⟩

example : Malformed (instructions (bytes "P2 1 1 1 x")) ∧ (∀ t ∈ instructions (bytes "P2 1 1 1 x"), ¬ TooLarge t) := by
  have e : instructions (bytes "P2 1 1 1 x") = [[80, 50], [49], [49], [49], [120]] := by decide +kernel
  have v := fun t ht => instructions_valid (s := bytes "P2 1 1 1 x") (t := t) ht
  rw [e] at v ⊢
  constructor
  · refine .inr (.inr (.inr ⟨1, 1, 1, ⟨[49], [49], [49], [[120]], rfl, ?_, ?_, ?_⟩, .inr ⟨[120], by decide, ?_⟩⟩))
    · exact (numberOf_iff (v _ (by simp))).1 (by decide +kernel)
    · exact (numberOf_iff (v _ (by simp))).1 (by decide +kernel)
    · exact (numberOf_iff (v _ (by simp))).1 (by decide +kernel)
    · rw [← stoul_invalid (v _ (by simp)).2.1]
      decide +kernel
  · intro t ht
    rw [← tooLarge_iff (v t ht)]
    revert t
    decide +kernel

/-- **C51** is false as stated: numbers that do not fit 64 bits end the function with an exception instead of `failbit`, for
example, a maximal value that is much too large. -/
theorem C51_too_large_refuted :
    readPgm 1 none (.opened (bytes "P2 1 1 18446744073709551616 0")) = .error (.exc .outOfRange) ∧
    readPgm 1 none (.opened (bytes "P2 1 99999999999999999999")) = .error (.exc .outOfRange) := by
  decide +kernel

/-- **C52**. When the last intensity is just read, `check_file_end` leaves no `failbit` if and only if the rest consists of
whitespace and comments. The text is assumed to have no bytes 128–254 in the rest, see `C53_isspace_refuted`. -/
theorem C52_trailing_exact (rest : Text) (ha : ∀ c ∈ rest, ¬ BadChar c) :
    Ok (checkFileEnd { rest := rest, eof := rest.isEmpty, fail := false }) fun r => r.1.fail = false ↔ FinalBlank rest := by
  rw [← instructions_nil_iff]
  have h : AheadNow { rest := rest, eof := rest.isEmpty, fail := false } (instructions rest) :=
    ⟨⟨rfl, by intro he; simpa using he, rfl⟩, by intro h'; simp only at h'; subst h'; rfl⟩
  rcases checkFileEnd_mk h with ⟨h1, r, e, h2⟩ | ⟨c, t, ts, h1, h2, -⟩ | ⟨c, t, ts, h1, -, r, e, h2⟩
  · exact ⟨r, e, by simp [h1, h2]⟩
  · exact absurd h2 (ha c (instructions_mem (t := c :: t) (by rw [h1]; simp) (by simp)))
  · exact ⟨r, e, by simp [h1, h2]⟩

/-- The same without the assumption: any rest without instructions is accepted, any other one is not. -/
theorem C52_trailing_never_accepted (rest : Text) (r : IStream × Bool)
    (hr : checkFileEnd { rest := rest, eof := rest.isEmpty, fail := false } = .ok r) : r.1.fail = false ↔ FinalBlank rest := by
  rw [← instructions_nil_iff]
  have h : AheadNow { rest := rest, eof := rest.isEmpty, fail := false } (instructions rest) :=
    ⟨⟨rfl, by intro he; simpa using he, rfl⟩, by intro h'; simp only at h'; subst h'; rfl⟩
  rcases checkFileEnd_mk h with ⟨h1, r', e, h2⟩ | ⟨c, t, ts, h1, h2, e⟩ | ⟨c, t, ts, h1, -, r', e, h2⟩
  · rw [hr] at e
    cases e
    simp [h1, h2]
  · rw [hr] at e
    cases e
  · rw [hr] at e
    cases e
    simp [h1, h2]

/-- The same for the whole file, for any text: with a complete image in the beginning, the rest decides. -/
theorem C52_superfluous_refused (limit : Nat) (held : Option Image) (text : Text) (ts rest : List Text) (im : Image)
    (e : instructions text = ts ++ rest) (h : PgmOf ts im) (s : IStream) (o : Option Image)
    (hr : readPgm limit held (.opened text) = .ok (s, o)) : s.fail = false ↔ rest = [] := by
  have hv : ∀ t ∈ ts ++ rest, IsInstruction t := by rw [← e]; exact fun t ht => instructions_valid ht
  constructor
  · intro hs
    obtain ⟨im', -, h2, -⟩ := (C51_accepted_exactly limit held text o).1 ⟨s, hr, hs⟩
    rw [e] at h2
    obtain ⟨a, b, c, ds, rfl, h1, h2', h3, h4, h5, h6⟩ := h
    obtain ⟨a', b', c', ds', e', k1, k2, k3, k4, k5, k6⟩ := h2
    simp only [List.cons_append, List.cons.injEq, true_and] at e' hv
    obtain ⟨rfl, rfl, rfl, rfl⟩ := e'
    have u1 := k1.unique (hv _ (by simp)) h1
    have u2 := k2.unique (hv _ (by simp)) h2'
    have l1 := forall₂_length h6
    have l2 := forall₂_length k6
    simp only [List.length_append, Array.length_toList] at l1 l2
    rw [k5, u1, u2, ← h5] at l2
    exact List.eq_nil_of_length_eq_zero (by omega)
  · rintro rfl
    rw [List.append_nil] at e
    have ho := read_outcome limit held text
    rw [hr] at ho
    rcases readSpec_cases limit held (ts := instructions text) (fun t ht => instructions_valid ht) with
      ⟨-, e'⟩ | ⟨e', -⟩ | ⟨e' | e', -⟩ | ⟨e', -⟩ | ⟨im', -, e', -⟩ | ⟨ts', t, rest, im', h1, h2, -⟩
    · rw [e] at e'
      have := h.wellFormed (rest := []) hv
      rw [List.append_nil] at this
      exact absurd e' this
    · rw [e'] at ho; exact ho.elim
    · rw [e'] at ho; exact ho.elim
    · rw [e'] at ho; exact ho.elim
    · rw [e'] at ho; exact ho.elim
    · rw [e'] at ho; exact ho.1
    · rw [e] at h1
      obtain ⟨a, b, c, ds, rfl, h1', h2', h3, h4, h5, h6⟩ := h
      obtain ⟨a', b', c', ds', rfl, k1, k2, k3, k4, k5, k6⟩ := h2
      simp only [List.cons_append, List.cons.injEq, true_and] at h1
      obtain ⟨rfl, rfl, rfl, rfl⟩ := h1
      have u1 := k1.unique (hv _ (by simp)) h1'
      have u2 := k2.unique (hv _ (by simp)) h2'
      have l1 := forall₂_length h6
      have l2 := forall₂_length k6
      simp only [List.length_append, Array.length_toList, List.length_cons] at l1 l2
      rw [k5, u1, u2, ← h5] at l2
      omega

example : FinalBlank (bytes " \n#end") := .inr ⟨bytes " \n", bytes "end",
  .space (by decide) (.space (by decide) .nil), by decide +kernel, by decide +kernel⟩
example : readPgm 1 none (.opened (bytes "P2 1 1 1 0 \n#end")) =
    .ok ({ rest := [], eof := true, fail := false }, some (img 1 1 1 [0])) := by decide +kernel

/-- **C53**. Reading has no undefined behaviour and ends.

The full statement is about all texts. What is proved is that undefined behaviour needs a header with `2^64` or more pixels, or a
byte 128–254 in superfluous content. `C53_wrapped_size_refuted` and `C53_isspace_refuted` show that both are possible. -/
theorem C53_read_safe_partial (limit : Nat) (held : Option Image) (text : Text)
    (hw : ∀ w h m, HeaderOf (instructions text) w h m → w.toNat * h.toNat < 18446744073709551616)
    (ha : Ascii text) :
    readPgm limit held (.opened text) ≠ .error .ub ∧ readPgm limit held (.opened text) ≠ .error .nonterm := by
  have hr := read_outcome limit held text
  rcases readSpec_cases limit held (ts := instructions text) (fun t ht => instructions_valid ht) with
    ⟨e, -⟩ | ⟨e, -⟩ | ⟨e | e, -⟩ | ⟨-, w, h, m, h1, h2⟩ | ⟨im, -, e, -⟩ | ⟨ts, t, rest, im, h1, -, ⟨-, h2⟩ | ⟨e, -⟩⟩
  · rw [e] at hr
    obtain ⟨r, e', -⟩ := hr.ok_right
    rw [e']; simp
  · rw [e] at hr
    rw [hr.error_right]; simp
  · rw [e] at hr
    rw [hr.error_right]; simp
  · rw [e] at hr
    rw [hr.error_right]; simp
  · have := hw _ _ _ h1
    omega
  · rw [e] at hr
    obtain ⟨r, e', -⟩ := hr.ok_right
    rw [e']; simp
  · have hmem : t ∈ instructions text := by rw [h1]; simp
    have hv := (instructions_valid hmem).1
    cases t with
    | nil => exact absurd rfl hv
    | cons c t =>
      have := ha c (instructions_mem hmem (by simp))
      have h3 := h2.1
      simp only [List.headD_cons] at h3
      rw [UInt8.le_iff_toNat_le] at h3
      rw [UInt8.lt_iff_toNat_lt] at this
      omega
  · rw [e] at hr
    obtain ⟨r, e', -⟩ := hr.ok_right
    rw [e']; simp

/-- Reading ends, whatever the text. -/
theorem C53_read_ends (limit : Nat) (held : Option Image) (text : Text) :
    readPgm limit held (.opened text) ≠ .error .nonterm := by
  have hr := read_outcome limit held text
  intro h
  rw [h] at hr
  rcases readSpec_cases limit held (ts := instructions text) (fun t ht => instructions_valid ht) with
    ⟨e, -⟩ | ⟨e, -⟩ | ⟨e | e, -⟩ | ⟨e, -⟩ | ⟨im, -, e, -⟩ | ⟨ts, t, rest, im, -, -, ⟨e, -⟩ | ⟨e, -⟩⟩
  all_goals
    rw [e] at hr
    cases hr

example : Ascii (bytes "P2 1 1 1 0") := by unfold Ascii; decide +kernel

/-- **C53** is false as stated: the number of pixels wraps around to zero, and the first intensity is written outside of the
empty array. -/
theorem C53_wrapped_size_refuted :
    readPgm 0 none (.opened (bytes "P2 4294967296 4294967296 1 0")) = .error .ub := by decide +kernel

/-- In general, every file with `2^64` or more pixels in the header and more intensities than the wrapped number of pixels is
written out of bounds, if there is memory for the latter. -/
theorem C53_wrapped_size_always (limit : Nat) (held : Option Image) (text : Text) (a b c : Text) (ds rest : List Text) (w h m : UInt64)
    (vs : List UInt64)
    (e : instructions text = FORMAT_CODE :: a :: b :: c :: (ds ++ rest))
    (ha : NumberOf a w) (hb : NumberOf b h) (hc : NumberOf c m) (hm : m ≤ 65536) (hds : List.Forall₂ NumberOf ds vs)
    (hwrap : 18446744073709551616 ≤ w.toNat * h.toNat) (hl : ds.length = (w * h).toNat + 1)
    (hlim : (w * h).toNat ≤ limit) (h60 : (w * h).toNat ≤ 1152921504606846975) :
    readPgm limit held (.opened text) = .error .ub := by
  have hr := read_outcome limit held text
  have hv : ∀ t ∈ instructions text, IsInstruction t := fun t ht => instructions_valid ht
  rw [e] at hr hv
  have n3 := numbers_of_forall (ds := [a, b, c]) (fun u hu => hv u (by
    simp only [List.mem_cons, List.not_mem_nil, or_false] at hu ⊢
    rcases hu with rfl | rfl | rfl <;> simp)) (vs := [w, h, m]) (.cons ha (.cons hb (.cons hc .nil))) (ds ++ rest)
  have nd := numbers_of_forall (ds := ds) (fun u hu => hv u (by simp [hu])) hds rest
  have hs : readSpec limit held (FORMAT_CODE :: a :: b :: c :: (ds ++ rest)) = .error .ub := by
    unfold readSpec
    simp only [List.length_cons, List.length_nil, List.cons_append, List.nil_append, Nat.zero_add, Nat.reduceAdd] at n3
    simp only [ne_eq, not_true_eq_false, if_false]
    rw [n3]
    simp only
    rw [if_neg (by rw [gt_iff_lt, UInt64.not_lt]; exact hm)]
    unfold resizeEmpty
    rw [if_neg (by omega), if_neg (by omega)]
    simp only
    unfold dataSpec overflowSpec
    rw [if_neg (by omega), ← hl, nd]
  rw [hs] at hr
  exact hr.error_right

/-- **C53** is false as stated, for another reason: `isspace` is called with a negative `char`, here a byte of a letter in UTF-8
after the image. -/
theorem C53_isspace_refuted :
    readPgm 1 none (.opened (bytes "P2 1 1 1 0 é")) = .error .ub := by decide +kernel

end SP
