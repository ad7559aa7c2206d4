import Verif.Spec.Pgm
import Verif.Lemmas.Core
/-!
# Instructions of a text and `read_pgm_instruction`
-/
namespace SP

theorem hash_not_space : isSpace hash = false := by decide
theorem newline_space : isSpace newline = true := by decide

@[simp] theorem instructions_nil : instructions [] = [] := rfl
@[simp] theorem lexC_nil : lex .comment [] = [] := rfl

theorem instructions_space {c : UInt8} {s : Text} (h : isSpace c = true) :
    instructions (c :: s) = instructions s := by
  simp [instructions, lex, h]

theorem instructions_hash {s : Text} : instructions (hash :: s) = lex .comment s := by
  simp [instructions, lex, hash_not_space]

theorem instructions_drop (s : Text) : instructions (s.dropWhile isSpace) = instructions s := by
  induction s with
  | nil => rfl
  | cons c s ih =>
    by_cases h : isSpace c = true
    · rw [List.dropWhile_cons_of_pos h, ih, instructions_space h]
    · rw [List.dropWhile_cons_of_neg h]

theorem lex_instruction (t s : Text) :
    lex (.instruction t) s =
      (t ++ s.takeWhile (fun c => !isSpace c)) :: instructions (s.dropWhile fun c => !isSpace c) := by
  induction s generalizing t with
  | nil => simp [lex]
  | cons c s ih =>
    by_cases h : isSpace c = true
    · rw [List.dropWhile_cons_of_neg (by simp [h]), List.takeWhile_cons_of_neg (by simp [h])]
      simp [lex, h, instructions_space h, instructions]
    · have h' : isSpace c = false := by simpa using h
      rw [List.dropWhile_cons_of_pos (by simp [h']), List.takeWhile_cons_of_pos (by simp [h'])]
      simp [lex, h', ih]

theorem lexC_skip (s : Text) : lex .comment (s.dropWhile fun c => !isSpace c) = lex .comment s := by
  induction s with
  | nil => rfl
  | cons c s ih =>
    by_cases h : isSpace c = true
    · rw [List.dropWhile_cons_of_neg (by simp [h])]
    · have h' : isSpace c = false := by simpa using h
      rw [List.dropWhile_cons_of_pos (by simp [h']), ih]
      have : c ≠ newline := by
        rintro rfl
        rw [newline_space] at h'
        cases h'
      simp [lex, this]

theorem lexC_drop (s : Text) :
    lex .comment s = match s.dropWhile (fun c => c != newline) with
      | [] => []
      | _ :: r => instructions r := by
  induction s with
  | nil => rfl
  | cons c s ih =>
    by_cases h : c = newline
    · rw [List.dropWhile_cons_of_neg (by simp [h])]
      simp [lex, h, instructions]
    · rw [List.dropWhile_cons_of_pos (by simp [h]), ← ih]
      simp [lex, h]

/-- A stream with instructions `ts` ahead. -/
structure Ahead (s : IStream) (ts : List Text) : Prop where
  fail : s.fail = false
  eof : s.eof = true → s.rest = []
  rest : instructions s.rest = ts

/-- Moreover, `eofbit` is set exactly at the end. -/
structure AheadNow (s : IStream) (ts : List Text) : Prop extends Ahead s ts where
  eofNow : s.rest = [] → s.eof = true

theorem length_dropWhile_le' {p : UInt8 → Bool} (s : Text) : (s.dropWhile p).length ≤ s.length := by
  induction s with
  | nil => simp
  | cons c s ih =>
    by_cases h : p c = true
    · rw [List.dropWhile_cons_of_pos h]; simp; omega
    · rw [List.dropWhile_cons_of_neg h]
      exact Nat.le_refl _

theorem mem_takeWhile_imp' {p : UInt8 → Bool} {s : Text} {c : UInt8} (h : c ∈ s.takeWhile p) : p c = true := by
  induction s with
  | nil => simp at h
  | cons d s ih =>
    by_cases hd : p d = true
    · rw [List.takeWhile_cons_of_pos hd] at h
      rcases List.mem_cons.1 h with rfl | h
      · exact hd
      · exact ih h
    · rw [List.takeWhile_cons_of_neg hd] at h
      simp at h

/-- The three cases of `s >> str`. -/
theorem extract_mk {s : IStream} {ts : List Text} (h : Ahead s ts) (cur : Text) :
    (ts = [] ∧ (s.extract cur).1.good = false ∧ (s.extract cur).2 = cur) ∨
    ((s.extract cur).2.headD 0 = hash ∧ lex .comment (s.extract cur).1.rest = ts ∧
      (s.extract cur).1.fail = false ∧ (s.extract cur).1.eof = (s.extract cur).1.rest.isEmpty ∧
      (s.extract cur).1.rest.length < s.rest.length) ∨
    (IsInstruction (s.extract cur).2 ∧ (s.extract cur).2.headD 0 ≠ hash ∧
      ∃ ts', ts = (s.extract cur).2 :: ts' ∧ AheadNow (s.extract cur).1 ts') := by
  obtain ⟨rest, eof, fail⟩ := s
  obtain ⟨h1, h2, h3⟩ := h
  simp only at h1 h2 h3
  subst h1
  cases eof
  · simp only [IStream.extract, IStream.good, Bool.not_false, Bool.and_self, Bool.not_true, Bool.false_eq_true, if_false]
    have hlen := length_dropWhile_le' (p := isSpace) rest
    cases hd : rest.dropWhile isSpace with
    | nil =>
      left
      refine ⟨?_, by simp, by simp⟩
      rw [← h3, ← instructions_drop, hd, instructions_nil]
    | cons c r =>
      rw [hd] at hlen
      have hc : isSpace c = false := by
        have := List.head?_dropWhile_not isSpace rest
        rw [hd] at this
        simpa using this
      have e : instructions (c :: r) = ts := by rw [← h3, ← instructions_drop rest, hd]
      have hlen' := length_dropWhile_le' (p := fun c => !isSpace c) r
      simp only [List.length_cons] at hlen
      by_cases hh : c = hash
      · right; left
        subst hh
        refine ⟨rfl, ?_, rfl, rfl, by simp only; omega⟩
        simp only
        rw [lexC_skip, ← instructions_hash, e]
      · right; right
        have e' : instructions (c :: r) = lex (.instruction [c]) r := by simp [instructions, lex, hc, hh]
        rw [e', lex_instruction] at e
        refine ⟨⟨by simp, ?_, by simpa using hh⟩, hh, _, e.symm, ⟨⟨rfl, ?_, rfl⟩, ?_⟩⟩
        · intro d hdm
          rcases List.mem_cons.1 hdm with rfl | hdm
          · exact hc
          · simpa using mem_takeWhile_imp' hdm
        · simp only; intro hx; simpa using hx
        · simp only; intro hx; simp [hx]
  · left
    have hr := h2 rfl
    subst hr
    exact ⟨by rw [← h3]; rfl, rfl, rfl⟩

/-- The loop over comments. -/
theorem comments_mk {fuel : Nat} {s : IStream} {cur : Text} {ts : List Text} (hfuel : s.rest.length < fuel)
    (hcur : cur.headD 0 = hash) (hf : s.fail = false) (he : s.eof = true → s.rest = []) (hts : lex .comment s.rest = ts) :
    Ok (cwhile fuel (fun st => st.1.good && st.2.headD 0 == hash)
      (fun st =>
        let s := st.1.ignoreLine
        if s.fail then .ok ((s, []), true)
        else .ok (s.extract st.2, false)) (s, cur)) fun r =>
      (ts = [] ∧ r.2.headD 0 = hash) ∨
      (IsInstruction r.2 ∧ r.2.headD 0 ≠ hash ∧ ∃ ts', ts = r.2 :: ts' ∧ AheadNow r.1 ts') := by
  induction fuel generalizing s cur with
  | zero => omega
  | succ fuel ih =>
    unfold cwhile
    obtain ⟨rest, eof, fail⟩ := s
    simp only at hf he hts hfuel
    subst hf
    cases eof
    · have hg : IStream.good ⟨rest, false, false⟩ = true := rfl
      simp only [hg, hcur, BEq.rfl, Bool.and_self, if_true]
      have hig : ∃ s1, IStream.ignoreLine ⟨rest, false, false⟩ = s1 ∧ Ahead s1 ts ∧ s1.rest.length ≤ rest.length := by
        refine ⟨_, rfl, ?_⟩
        rw [lexC_drop] at hts
        have hl := length_dropWhile_le' (p := fun c => c != newline) rest
        unfold IStream.ignoreLine
        simp only [hg, Bool.not_true, Bool.false_eq_true, if_false]
        cases hd : rest.dropWhile (fun c => c != newline) with
        | nil =>
          rw [hd] at hts
          exact ⟨⟨rfl, fun _ => rfl, hts⟩, by simp⟩
        | cons c r =>
          rw [hd] at hts hl
          exact ⟨⟨rfl, by simp, hts⟩, by simp at hl ⊢; omega⟩
      obtain ⟨s1, e1, h1, h2⟩ := hig
      rw [e1]
      simp only [h1.fail, Bool.false_eq_true, if_false]
      rcases extract_mk h1 cur with ⟨a1, a2, a3⟩ | ⟨a1, a2, a3, a4, a5⟩ | ⟨a1, a2, ts', a3, a4⟩
      · have : ∀ fuel, cwhile fuel (fun st : IStream × Text => st.1.good && st.2.headD 0 == hash)
            (fun st =>
              let s := st.1.ignoreLine
              if s.fail then .ok ((s, []), true)
              else .ok (s.extract st.2, false)) (s1.extract cur) = .ok (s1.extract cur) := by
          intro fuel
          cases fuel <;> simp [cwhile, a2]
        rw [this]
        exact Ok.pure (.inl ⟨a1, by rw [a3]; exact hcur⟩)
      · refine ih ?_ a1 a3 (fun h => ?_) a2
        · have : (s1.extract cur).1.rest.length < s1.rest.length := a5
          show (s1.extract cur).1.rest.length < fuel
          omega
        · have : (s1.extract cur).1.eof = true := h
          rw [a4] at this
          exact List.isEmpty_iff.1 this
      · have hne : ((s1.extract cur).2.headD 0 == hash) = false := by simpa using a2
        have : ∀ fuel, cwhile fuel (fun st : IStream × Text => st.1.good && st.2.headD 0 == hash)
            (fun st =>
              let s := st.1.ignoreLine
              if s.fail then .ok ((s, []), true)
              else .ok (s.extract st.2, false)) (s1.extract cur) = .ok (s1.extract cur) := by
          intro fuel
          cases fuel <;> simp only [cwhile, hne, Bool.and_false, Bool.false_eq_true, if_false]
        rw [this]
        exact Ok.pure (.inr ⟨a1, a2, ts', a3, a4⟩)
    · have hr := he rfl
      subst hr
      simp only [IStream.good, Bool.not_true, Bool.false_and, Bool.false_eq_true, if_false]
      exact Ok.pure (.inl ⟨hts.symm, hcur⟩)

/-- `read_pgm_instruction` returns the next instruction, or an empty string if there is none. -/
theorem readPgmInstruction_mk {s : IStream} {ts : List Text} (h : Ahead s ts) :
    Ok (readPgmInstruction s) fun r =>
      (ts = [] ∧ r.2 = []) ∨ (IsInstruction r.2 ∧ ∃ ts', ts = r.2 :: ts' ∧ AheadNow r.1 ts') := by
  unfold readPgmInstruction
  simp only [h.fail, Bool.false_eq_true, if_false]
  rcases extract_mk h [] with ⟨a1, a2, a3⟩ | ⟨a1, a2, a3, a4, a5⟩ | ⟨a1, a2, ts', a3, a4⟩
  · generalize s.extract [] = p at *
    obtain ⟨s1, cur⟩ := p
    simp only at a2 a3
    subst a3
    have : cwhile (s1.rest.length + 1) (fun st : IStream × Text => st.1.good && st.2.headD 0 == hash)
            (fun st =>
              let s := st.1.ignoreLine
              if s.fail then .ok ((s, []), true)
              else .ok (s.extract st.2, false)) (s1, []) = .ok (s1, []) := by
      simp [cwhile, a2]
    simp only [this, bind_ok]
    rw [if_neg (by decide)]
    exact Ok.pure (.inl ⟨a1, rfl⟩)
  · generalize s.extract [] = p at *
    obtain ⟨s1, cur⟩ := p
    simp only at a1 a2 a3 a4 a5
    refine Ok.bind (comments_mk (Nat.lt_succ_self _) a1 a3 (fun h => by rw [a4] at h; simpa using h) a2) ?_
    rintro ⟨s2, cur2⟩ (⟨b1, b2⟩ | ⟨b1, b2, b3⟩)
    · simp only at b2
      simp only [b2, BEq.rfl, if_true]
      exact Ok.pure (.inl ⟨b1, rfl⟩)
    · simp only at b2
      have : (cur2.headD 0 == hash) = false := by simpa using b2
      simp only [this, Bool.false_eq_true, if_false]
      exact Ok.pure (.inr ⟨b1, b3⟩)
  · generalize s.extract [] = p at *
    obtain ⟨s1, cur⟩ := p
    simp only at a1 a2 a3 a4
    have hne : (cur.headD 0 == hash) = false := by simpa using a2
    have : cwhile (s1.rest.length + 1) (fun st : IStream × Text => st.1.good && st.2.headD 0 == hash)
            (fun st =>
              let s := st.1.ignoreLine
              if s.fail then .ok ((s, []), true)
              else .ok (s.extract st.2, false)) (s1, cur) = .ok (s1, cur) := by
      simp only [cwhile, hne, Bool.and_false, Bool.false_eq_true, if_false]
    simp only [this, bind_ok, hne, Bool.false_eq_true, if_false]
    exact Ok.pure (.inr ⟨a1, ts', a3, a4⟩)

/-- A byte for which `isspace` is undefined. -/
def BadChar (c : UInt8) : Prop := 128 ≤ c ∧ c < 255

/-- The loop of `check_file_end`. -/
def endLoop (fuel : Nat) (s : IStream) (cur : Option UInt8) : M (IStream × Option UInt8) :=
  cwhile fuel
    (fun st => st.1.good && !st.1.eof)
    (fun st => do
      let (s, current_input) := st.1.get st.2
      match current_input with
      | none => .error .ub
      | some c =>
        if c = hash then
          return ((s.ignoreLine, some c), false)
        else if !(← isspaceChar c) then
          return ((s.setFail, some c), false)
        else
          return ((s, some c), false))
    (s, cur)

theorem isspaceChar_space {c : UInt8} (h : isSpace c = true) : isspaceChar c = .ok true := by
  unfold isspaceChar
  rw [if_neg, h]
  rintro ⟨h1, -⟩
  unfold isSpace at h
  simp only [Bool.or_eq_true, beq_iff_eq, Bool.and_eq_true, decide_eq_true_eq] at h
  simp only [UInt8.le_iff_toNat_le] at h h1
  rcases h with rfl | h
  · revert h1; decide
  · have : (128 : UInt8).toNat = 128 := rfl
    have : (13 : UInt8).toNat = 13 := rfl
    omega

theorem endLoop_stop {fuel : Nat} {s : IStream} {cur : Option UInt8} (h : s.good = false) :
    endLoop fuel s cur = .ok (s, cur) := by
  unfold endLoop
  cases fuel <;> simp [cwhile, h]

theorem ignoreLine_ahead {rest : Text} :
    Ahead (IStream.ignoreLine ⟨rest, false, false⟩) (lex .comment rest) ∧
    (IStream.ignoreLine ⟨rest, false, false⟩).rest.length ≤ rest.length := by
  have hg : IStream.good ⟨rest, false, false⟩ = true := rfl
  have hl := length_dropWhile_le' (p := fun c => c != newline) rest
  rw [lexC_drop]
  unfold IStream.ignoreLine
  simp only [hg, Bool.not_true, Bool.false_eq_true, if_false]
  cases hd : rest.dropWhile (fun c => c != newline) with
  | nil => exact ⟨⟨rfl, fun _ => rfl, rfl⟩, by simp⟩
  | cons c r =>
    rw [hd] at hl
    exact ⟨⟨rfl, by simp, rfl⟩, by simp at hl ⊢; omega⟩

theorem endLoop_mk {fuel : Nat} {s : IStream} {cur : Option UInt8} {ts : List Text} (hfuel : s.rest.length < fuel)
    (h : Ahead s ts) (hcur : ∀ c ∈ cur, c = hash ∨ isSpace c = true) (hnone : cur = none → s.good = true → s.rest ≠ []) :
    (ts = [] ∧ Ok (endLoop fuel s cur) fun r => r.1.eof = true) ∨
    (∃ c t ts', ts = (c :: t) :: ts' ∧ BadChar c ∧ endLoop fuel s cur = .error .ub) ∨
    (∃ c t ts', ts = (c :: t) :: ts' ∧ ¬ BadChar c ∧ Ok (endLoop fuel s cur) fun r => r.1.eof = false ∧ r.1.fail = true) := by
  induction fuel generalizing s cur with
  | zero => omega
  | succ fuel ih =>
    obtain ⟨rest, eof, fail⟩ := s
    obtain ⟨h1, h2, h3⟩ := h
    simp only at h1 h2 h3 hfuel
    subst h1
    cases eof
    · have hg : IStream.good ⟨rest, false, false⟩ = true := rfl
      have hstep : endLoop (fuel + 1) ⟨rest, false, false⟩ cur =
          (match IStream.get ⟨rest, false, false⟩ cur with
            | (s, none) => .error .ub
            | (s, some c) =>
              if c = hash then endLoop fuel s.ignoreLine (some c)
              else
                match isspaceChar c with
                | .error e => .error e
                | .ok b => if !b then endLoop fuel s.setFail (some c) else endLoop fuel s (some c)) := by
        unfold endLoop
        rw [cwhile]
        simp only [hg, Bool.not_false, Bool.and_self, if_true]
        rcases IStream.get ⟨rest, false, false⟩ cur with ⟨s1, _ | c⟩
        · rfl
        · simp only
          by_cases hc : c = hash
          · simp [hc]
          · simp only [hc, if_false]
            cases isspaceChar c with
            | error e => rfl
            | ok b => cases b <;> rfl
      rw [hstep]
      cases rest with
      | nil =>
        have hget : IStream.get ⟨[], false, false⟩ cur = (⟨[], true, true⟩, cur) := rfl
        rw [hget]
        left
        refine ⟨by rw [← h3]; rfl, ?_⟩
        cases cur with
        | none => exact absurd rfl (hnone rfl rfl)
        | some c =>
          simp only
          have hng : IStream.good ⟨[], true, true⟩ = false := rfl
          rcases hcur c rfl with rfl | hc
          · rw [if_pos rfl]
            rw [endLoop_stop (by rfl)]
            exact Ok.pure rfl
          · have hch : c ≠ hash := by
              rintro rfl
              rw [hash_not_space] at hc; cases hc
            rw [if_neg hch, isspaceChar_space hc]
            simp only [Bool.not_true, Bool.false_eq_true, if_false]
            rw [endLoop_stop (by rfl)]
            exact Ok.pure rfl
      | cons b r =>
        have hget : IStream.get ⟨b :: r, false, false⟩ cur = (⟨r, false, false⟩, some b) := rfl
        rw [hget]
        simp only
        simp only [List.length_cons] at hfuel
        by_cases hb : b = hash
        · subst hb
          rw [if_pos rfl]
          obtain ⟨i1, i2⟩ := ignoreLine_ahead (rest := r)
          rw [← instructions_hash, h3] at i1
          exact ih (by omega) i1 (by simp) (by simp)
        · rw [if_neg hb]
          by_cases hs : isSpace b = true
          · rw [isspaceChar_space hs]
            simp only [Bool.not_true, Bool.false_eq_true, if_false]
            exact ih (s := ⟨r, false, false⟩) (by simp only; omega) ⟨rfl, by simp, by rw [← h3, instructions_space hs]⟩
              (by simpa using .inr hs) (by simp)
          · have hs' : isSpace b = false := by simpa using hs
            have e' : instructions (b :: r) = lex (.instruction [b]) r := by simp [instructions, lex, hs', hb]
            rw [lex_instruction] at e'
            rw [h3] at e'
            right
            by_cases hbad : BadChar b
            · left
              refine ⟨b, _, _, e', hbad, ?_⟩
              have : isspaceChar b = .error .ub := by
                unfold isspaceChar; exact if_pos hbad
              rw [this]
            · right
              refine ⟨b, _, _, e', hbad, ?_⟩
              have : isspaceChar b = .ok false := by
                unfold isspaceChar; rw [if_neg (show ¬ (128 ≤ b ∧ b < 255) from hbad), hs']
              rw [this]
              simp only [Bool.not_false, if_true]
              rw [endLoop_stop (by rfl)]
              exact Ok.pure ⟨rfl, rfl⟩
    · have hr := h2 rfl
      subst hr
      left
      refine ⟨by rw [← h3]; rfl, ?_⟩
      rw [endLoop_stop (by rfl)]
      exact Ok.pure rfl

/-- `check_file_end` after the last instruction. -/
theorem checkFileEnd_mk {s : IStream} {ts : List Text} (h : AheadNow s ts) :
    (ts = [] ∧ Ok (checkFileEnd s) fun r => r.1.fail = false) ∨
    (∃ c t ts', ts = (c :: t) :: ts' ∧ BadChar c ∧ checkFileEnd s = .error .ub) ∨
    (∃ c t ts', ts = (c :: t) :: ts' ∧ ¬ BadChar c ∧ Ok (checkFileEnd s) fun r => r.1.fail = true) := by
  have e : checkFileEnd s = endLoop (s.rest.length + 1) s none >>= fun p =>
      .ok (if p.1.eof then { p.1 with fail := false } else p.1, (if p.1.eof then { p.1 with fail := false } else p.1).good) := rfl
  rw [e]
  have := endLoop_mk (cur := none) (Nat.lt_succ_self _) h.toAhead (by simp) (fun _ hg hr => by
    have := h.eofNow hr
    simp [IStream.good, this] at hg)
  rcases this with ⟨h1, r, hr, h2⟩ | ⟨c, t, ts', h1, h2, h3⟩ | ⟨c, t, ts', h1, h2, r, hr, h3, h4⟩
  · refine .inl ⟨h1, ?_⟩
    rw [hr, bind_ok]
    exact Ok.pure (by simp [h2])
  · refine .inr (.inl ⟨c, t, ts', h1, h2, ?_⟩)
    rw [h3]; rfl
  · refine .inr (.inr ⟨c, t, ts', h1, h2, ?_⟩)
    rw [hr, bind_ok]
    exact Ok.pure (by simp [h3, h4])

end SP
