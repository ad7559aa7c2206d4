import Verif.Lemmas.Lex
import Verif.Lemmas.Sim
import Verif.Lemmas.Access
/-!
# Reading of PGM images
-/
namespace SP

/-! ## Numbers -/

theorem stoul_nil : stoul [] = .error (.exc (.invalidArgument "stoul")) := rfl

theorem catch_nil : catchInvalid (stoul []) = .ok none := rfl

/-- The digits `stoul` takes. -/
def stoulDigits (t : Text) : Text :=
  (if (t.dropWhile isSpace).headD 0 == 45 || (t.dropWhile isSpace).headD 0 == 43 then (t.dropWhile isSpace).tail
    else t.dropWhile isSpace).takeWhile isDigit

theorem stoul_def (t : Text) :
    stoul t =
      if (stoulDigits t).isEmpty then .error (.exc (.invalidArgument "stoul"))
      else if 18446744073709551616 ≤ digitsValue (stoulDigits t) then .error (.exc .outOfRange)
      else .ok (if (t.dropWhile isSpace).headD 0 == 45 then 0 - UInt64.ofNat (digitsValue (stoulDigits t))
        else UInt64.ofNat (digitsValue (stoulDigits t))) := rfl

/-- `stoul` on an instruction. -/
theorem stoul_cases (t : Text) :
    (∃ v, stoul t = .ok v) ∨ stoul t = .error (.exc (.invalidArgument "stoul")) ∨ stoul t = .error (.exc .outOfRange) := by
  rw [stoul_def]
  split
  · exact .inr (.inl rfl)
  · split
    · exact .inr (.inr rfl)
    · exact .inl ⟨_, rfl⟩

theorem dropWhile_instruction {t : Text} (h : ∀ c ∈ t, isSpace c = false) : t.dropWhile isSpace = t := by
  cases t with
  | nil => rfl
  | cons c t => exact List.dropWhile_cons_of_neg (by simp [h c (by simp)])

theorem takeWhile_isEmpty {p : UInt8 → Bool} (t : Text) :
    (t.takeWhile p).isEmpty = true ↔ ∀ c, t.head? = some c → p c = false := by
  cases t with
  | nil => simp
  | cons c t =>
    cases h : p c
    · rw [List.takeWhile_cons_of_neg (by simp [h])]; simp [h]
    · rw [List.takeWhile_cons_of_pos h]; simp [h]

/-- `std::invalid_argument` is thrown exactly when an instruction does not begin like a number. -/
theorem stoul_invalid {t : Text} (h : ∀ c ∈ t, isSpace c = false) :
    stoul t = .error (.exc (.invalidArgument "stoul")) ↔ ¬ LikeNumber t := by
  have key : stoul t = .error (.exc (.invalidArgument "stoul")) ↔
      ((if t.headD 0 == 45 || t.headD 0 == 43 then t.tail else t).takeWhile isDigit).isEmpty = true := by
    have e : stoulDigits t = (if t.headD 0 == 45 || t.headD 0 == 43 then t.tail else t).takeWhile isDigit := by
      unfold stoulDigits
      rw [dropWhile_instruction h]
    rw [stoul_def, ← e]
    by_cases hne : (stoulDigits t).isEmpty = true
    · rw [if_pos hne]; simp [hne]
    · rw [if_neg hne]
      constructor
      · intro h'
        split at h' <;> simp at h'
      · intro h'
        exact absurd h' hne
  rw [key, takeWhile_isEmpty]
  unfold LikeNumber
  constructor
  · rintro h1 ⟨sign, d, r, rfl, hs, hd⟩
    simp only [List.mem_cons, List.not_mem_nil, or_false] at hs
    rcases hs with rfl | rfl | rfl
    · have : (d == 45 || d == 43) = false := by
        cases hx : (d == 45 || d == 43)
        · rfl
        · rw [Bool.or_eq_true, beq_iff_eq, beq_iff_eq] at hx
          rcases hx with rfl | rfl
          · exact absurd hd (by decide)
          · exact absurd hd (by decide)
      have h2 := h1 d (by simp [this])
      rw [hd] at h2; cases h2
    · have h2 := h1 d (by simp)
      rw [hd] at h2; cases h2
    · have h2 := h1 d (by simp)
      rw [hd] at h2; cases h2
  · intro h1 c hc
    cases hd : isDigit c
    · rfl
    · exfalso
      apply h1
      cases t with
      | nil => simp at hc
      | cons a t =>
        by_cases ha : a = 45 ∨ a = 43
        · have : (a == 45 || a == 43) = true := by
            rw [Bool.or_eq_true, beq_iff_eq, beq_iff_eq]; exact ha
          simp only [List.headD_cons, this, if_true, List.tail_cons] at hc
          cases t with
          | nil => simp at hc
          | cons b t =>
            simp only [List.head?_cons, Option.some.injEq] at hc
            subst hc
            refine ⟨[a], b, t, rfl, ?_, hd⟩
            rcases ha with rfl | rfl <;> simp
        · have : (a == 45 || a == 43) = false := by
            simpa using ha
          simp only [List.headD_cons, this, Bool.false_eq_true, if_false, List.head?_cons, Option.some.injEq] at hc
          subst hc
          exact ⟨[], a, t, rfl, by simp, hd⟩

/-- Reads `n` numbers from the beginning of a list of instructions: the numbers and the remaining instructions; `none` if an
instruction is missing or does not begin like a number. -/
def numbers : Nat → List Text → M (Option (List UInt64 × List Text))
  | 0, ts => .ok (some ([], ts))
  | _ + 1, [] => .ok none
  | n + 1, t :: ts =>
    match catchInvalid (stoul t) with
    | .error e => .error e
    | .ok none => .ok none
    | .ok (some v) =>
      match numbers n ts with
      | .error e => .error e
      | .ok none => .ok none
      | .ok (some (vs, ts)) => .ok (some (v :: vs, ts))

theorem catch_cases (t : Text) :
    (∃ v, stoul t = .ok v ∧ catchInvalid (stoul t) = .ok (some v)) ∨
    (stoul t = .error (.exc (.invalidArgument "stoul")) ∧ catchInvalid (stoul t) = .ok none) ∨
    (stoul t = .error (.exc .outOfRange) ∧ catchInvalid (stoul t) = .error (.exc .outOfRange)) := by
  rcases stoul_cases t with ⟨v, h⟩ | h | h
  · exact .inl ⟨v, h, by rw [h]; rfl⟩
  · exact .inr (.inl ⟨h, by rw [h]; rfl⟩)
  · exact .inr (.inr ⟨h, by rw [h]; rfl⟩)

/-! ## The result depends only on instructions -/

/-- Two streams with the same instructions ahead. -/
def Twin (s t : IStream) : Prop := ∃ ts, Ahead s ts ∧ Ahead t ts

/-- The same, after an instruction has been read. -/
def TwinNow (s t : IStream) : Prop := ∃ ts, AheadNow s ts ∧ AheadNow t ts

theorem TwinNow.twin {s t : IStream} (h : TwinNow s t) : Twin s t := by
  obtain ⟨ts, h1, h2⟩ := h
  exact ⟨ts, h1.toAhead, h2.toAhead⟩

theorem instr_sim {s t : IStream} (h : Twin s t) :
    Sim (fun a b => a.2 = b.2 ∧ (a.2 = [] ∨ TwinNow a.1 b.1)) (readPgmInstruction s) (readPgmInstruction t) := by
  obtain ⟨ts, h1, h2⟩ := h
  obtain ⟨a, ea, ha⟩ := readPgmInstruction_mk h1
  obtain ⟨b, eb, hb⟩ := readPgmInstruction_mk h2
  rw [ea, eb]
  rcases ha with ⟨rfl, ha⟩ | ⟨ia, ta, ha, ha'⟩
  · rcases hb with ⟨-, hb⟩ | ⟨ib, tb, hb, hb'⟩
    · exact ⟨by rw [ha, hb], .inl ha⟩
    · cases hb
  · rcases hb with ⟨hb, -⟩ | ⟨ib, tb, hb, hb'⟩
    · rw [hb] at ha; cases ha
    · rw [ha] at hb
      obtain ⟨h3, rfl⟩ := List.cons.inj hb
      exact ⟨h3, .inr ⟨ta, ha', hb'⟩⟩

/-- The outcome of reading a number. -/
theorem readNumber_mk {s : IStream} {ts : List Text} (h : Ahead s ts) :
    ((ts = [] ∨ ∃ t ts', ts = t :: ts' ∧ IsInstruction t ∧ ¬ LikeNumber t) ∧
      Ok (readNumber s) fun r => r.2 = none ∧ r.1.fail = true) ∨
    (∃ t ts', ts = t :: ts' ∧ IsInstruction t ∧ stoul t = .error (.exc .outOfRange) ∧
      readNumber s = .error (.exc .outOfRange)) ∨
    (∃ t ts' v, ts = t :: ts' ∧ IsInstruction t ∧ stoul t = .ok v ∧
      Ok (readNumber s) fun r => r.2 = some v ∧ AheadNow r.1 ts') := by
  obtain ⟨⟨s', t⟩, e, h1⟩ := readPgmInstruction_mk h
  unfold readNumber
  simp only [e, bind_ok]
  simp only at h1
  rcases h1 with ⟨rfl, rfl⟩ | ⟨h1, ts', rfl, h2⟩
  · left
    refine ⟨.inl rfl, ?_⟩
    rw [catch_nil]
    exact Ok.pure ⟨rfl, rfl⟩
  · rcases catch_cases t with ⟨v, h3, h4⟩ | ⟨h3, h4⟩ | ⟨h3, h4⟩
    · right; right
      refine ⟨t, ts', v, rfl, h1, h3, ?_⟩
      rw [h4]
      exact Ok.pure ⟨rfl, h2⟩
    · left
      refine ⟨.inr ⟨t, ts', rfl, h1, (stoul_invalid h1.2.1).1 h3⟩, ?_⟩
      rw [h4]
      exact Ok.pure ⟨rfl, rfl⟩
    · right; left
      refine ⟨t, ts', rfl, h1, h3, ?_⟩
      rw [h4]

theorem stoul_ok_like {t : Text} {v : UInt64} (h : IsInstruction t) (hv : stoul t = .ok v) : LikeNumber t := by
  refine Classical.byContradiction fun hn => ?_
  rw [(stoul_invalid h.2.1).2 hn] at hv
  cases hv

theorem stoul_range_like {t : Text} (h : IsInstruction t) (hv : stoul t = .error (.exc .outOfRange)) : LikeNumber t := by
  refine Classical.byContradiction fun hn => ?_
  rw [(stoul_invalid h.2.1).2 hn] at hv
  cases hv

theorem readNumber_sim {s t : IStream} (h : Twin s t) :
    Sim (fun a b => a.2 = b.2 ∧ (a.2 = none → a.1.fail = true ∧ b.1.fail = true) ∧ (a.2 ≠ none → TwinNow a.1 b.1))
      (readNumber s) (readNumber t) := by
  obtain ⟨ts, h1, h2⟩ := h
  rcases readNumber_mk h1 with ⟨a1, r, a2, a3, a4⟩ | ⟨u, ts', a1, ia, a2, a3⟩ | ⟨u, ts', v, a1, ia, a2, r, a3, a4, a5⟩
  · rcases readNumber_mk h2 with ⟨b1, r', b2, b3, b4⟩ | ⟨u', ts'', b1, ib, b2, b3⟩ | ⟨u', ts'', v', b1, ib, b2, r', b3, b4, b5⟩
    · rw [a2, b2]
      exact ⟨by rw [a3, b3], fun _ => ⟨a4, b4⟩, fun h => absurd a3 h⟩
    · exfalso
      rcases a1 with rfl | ⟨u, ts', rfl, iu, hu⟩
      · cases b1
      · cases b1
        exact hu (stoul_range_like ib b2)
    · exfalso
      rcases a1 with rfl | ⟨u, ts', rfl, iu, hu⟩
      · cases b1
      · cases b1
        exact hu (stoul_ok_like ib b2)
  · subst a1
    rcases readNumber_mk h2 with ⟨b1, r', b2, b3, b4⟩ | ⟨u', ts'', b1, ib, b2, b3⟩ | ⟨u', ts'', v', b1, ib, b2, r', b3, b4, b5⟩
    · exfalso
      rcases b1 with b1 | ⟨u, ts', b1, iu, hu⟩
      · cases b1
      · cases b1
        exact hu (stoul_range_like ia a2)
    · rw [a3, b3]
      exact Sim.error _
    · cases b1
      rw [a2] at b2
      cases b2
  · subst a1
    rcases readNumber_mk h2 with ⟨b1, r', b2, b3, b4⟩ | ⟨u', ts'', b1, ib, b2, b3⟩ | ⟨u', ts'', v', b1, ib, b2, r', b3, b4, b5⟩
    · exfalso
      rcases b1 with b1 | ⟨u, ts', b1, iu, hu⟩
      · cases b1
      · cases b1
        exact hu (stoul_ok_like ia a2)
    · cases b1
      rw [a2] at b2
      cases b2
    · cases b1
      rw [a2] at b2
      cases b2
      rw [a3, b3]
      exact ⟨by rw [a4, b4], fun h => (by rw [a4] at h; cases h), fun _ => ⟨ts', a5, b5⟩⟩

theorem readHeader_sim {s t : IStream} (h : Twin s t) :
    Sim (fun a b => a.2 = b.2 ∧ (a.2 = none → a.1.fail = true ∧ b.1.fail = true) ∧ (a.2 ≠ none → TwinNow a.1 b.1))
      (readHeader s) (readHeader t) := by
  unfold readHeader
  refine Sim.bind (readNumber_sim h) ?_
  rintro ⟨s, o⟩ ⟨t, o'⟩ ⟨h1, h2, h3⟩
  simp only at h1 h2 h3
  subst h1
  cases o with
  | none => exact Sim.ok ⟨rfl, fun _ => h2 rfl, by simp⟩
  | some w =>
    refine Sim.bind (readNumber_sim (h3 (by simp)).twin) ?_
    rintro ⟨s, o⟩ ⟨t, o'⟩ ⟨h1, h2, h3⟩
    simp only at h1 h2 h3
    subst h1
    cases o with
    | none => exact Sim.ok ⟨rfl, fun _ => h2 rfl, by simp⟩
    | some hh =>
      refine Sim.bind (readNumber_sim (h3 (by simp)).twin) ?_
      rintro ⟨s, o⟩ ⟨t, o'⟩ ⟨h1, h2, h3⟩
      simp only at h1 h2 h3
      subst h1
      cases o with
      | none => exact Sim.ok ⟨rfl, fun _ => h2 rfl, by simp⟩
      | some m => exact Sim.ok ⟨rfl, by simp, fun _ => h3 (by simp)⟩

/-- Related states after the loops over pixels. -/
def TwinState (a b : ReadState) : Prop :=
  a.2 = b.2 ∧ (a.2.2 = true → a.1.fail = true ∧ b.1.fail = true) ∧ (a.2.2 = false → TwinNow a.1 b.1)

/-- Related states inside of the loops over pixels. -/
def TwinInside (a b : ReadState) : Prop := a.2 = b.2 ∧ a.2.2 = false ∧ TwinNow a.1 b.1

theorem TwinInside.state {a b : ReadState} (h : TwinInside a b) : TwinState a b :=
  ⟨h.1, fun h' => (by rw [h.2.1] at h'; cases h'), fun _ => h.2.2⟩

theorem readPixel_sim (image : Image) (y x : UInt64) (a b : ReadState) (h : TwinInside a b) :
    Sim (fun a b => a.2 = b.2 ∧ if a.2 then TwinState a.1 b.1 else TwinInside a.1 b.1)
      (readPixel image y x a) (readPixel image y x b) := by
  obtain ⟨s, d, r⟩ := a
  obtain ⟨t, d', r'⟩ := b
  obtain ⟨h1, h2, h3⟩ := h
  simp only [Prod.mk.injEq] at h1 h2 h3
  obtain ⟨rfl, rfl⟩ := h1
  unfold readPixel
  refine Sim.bind (readNumber_sim h3.twin) ?_
  rintro ⟨s, o⟩ ⟨t, o'⟩ ⟨h1, h2, h3⟩
  simp only at h1 h2 h3
  subst h1
  cases o with
  | none => exact Sim.ok ⟨rfl, rfl, fun _ => h2 rfl, by simp⟩
  | some v =>
    refine Sim.bind_same fun data => ?_
    exact Sim.ok ⟨rfl, rfl, rfl, h3 (by simp)⟩

theorem readRow_sim (image : Image) (y : UInt64) (a b : ReadState) (h : TwinInside a b) :
    Sim TwinState (readRow image y a) (readRow image y b) :=
  cfor_sim (readPixel_sim image y) (fun _ _ h => h.state) _ _ _ _ h

theorem readData_sim {s t : IStream} (h : TwinNow s t) (image : Image) :
    Sim TwinState (readData s image) (readData t image) := by
  unfold readData
  refine cfor_sim (R := TwinInside) ?_ (fun _ _ h => h.state) _ _ _ _ ⟨rfl, rfl, h⟩
  intro y a b hab
  have := readRow_sim image y a b hab
  cases hm : readRow image y a with
  | error e =>
    cases hn : readRow image y b with
    | error e' => rw [hm, hn] at this; exact this
    | ok r => rw [hm, hn] at this; exact this.elim
  | ok q =>
    cases hn : readRow image y b with
    | error e' => rw [hm, hn] at this; exact this.elim
    | ok r =>
      rw [hm, hn] at this
      have h1 : TwinState q r := this
      refine ⟨by simp only [h1.1], ?_⟩
      simp only
      cases hq : q.2.2
      · exact ⟨h1.1, hq, h1.2.2 hq⟩
      · exact h1

theorem checkFileEnd_sim {s t : IStream} (h : TwinNow s t) :
    Sim (fun a b => a.1.fail = b.1.fail) (checkFileEnd s) (checkFileEnd t) := by
  obtain ⟨ts, h1, h2⟩ := h
  rcases checkFileEnd_mk h1 with ⟨rfl, a, ea, ha⟩ | ⟨c, u, ts', rfl, hc, ea⟩ | ⟨c, u, ts', rfl, hc, a, ea, ha⟩
  · rcases checkFileEnd_mk h2 with ⟨-, b, eb, hb⟩ | ⟨c, u, ts', e, hc, eb⟩ | ⟨c, u, ts', e, hc, b, eb, hb⟩
    · rw [ea, eb]
      exact ha.trans hb.symm
    · cases e
    · cases e
  · rcases checkFileEnd_mk h2 with ⟨e, b, eb, hb⟩ | ⟨c, u, ts', e, hc, eb⟩ | ⟨c', u', ts'', e, hc', b, eb, hb⟩
    · cases e
    · rw [ea, eb]
      exact Sim.error _
    · cases e
      exact absurd hc hc'
  · rcases checkFileEnd_mk h2 with ⟨e, b, eb, hb⟩ | ⟨c', u', ts'', e, hc', eb⟩ | ⟨c', u', ts'', e, hc', b, eb, hb⟩
    · cases e
    · cases e
      exact absurd hc' hc
    · rw [ea, eb]
      exact ha.trans hb.symm

/-- Texts with the same instructions are read in the same way. -/
theorem readPgm_sim {s t : IStream} (h : Twin s t) (limit : Nat) (held : Option Image) :
    Sim (fun a b => a.1.fail = b.1.fail ∧ a.2 = b.2) (readPgm limit held s) (readPgm limit held t) := by
  unfold readPgm
  refine Sim.bind (instr_sim h) ?_
  rintro ⟨s, u⟩ ⟨t, u'⟩ ⟨h1, h2⟩
  simp only at h1 h2
  subst h1
  simp only
  by_cases hu : u = FORMAT_CODE
  · subst hu
    simp only [ne_eq, not_true_eq_false, if_false]
    have h2' : TwinNow s t := by
      rcases h2 with h2 | h2
      · cases h2
      · exact h2
    refine Sim.bind (readHeader_sim h2'.twin) ?_
    rintro ⟨s, o⟩ ⟨t, o'⟩ ⟨h1, h3, h4⟩
    simp only at h1 h3 h4
    subst h1
    cases o with
    | none => exact Sim.ok ⟨by simp [(h3 rfl).1, (h3 rfl).2], rfl⟩
    | some q =>
      obtain ⟨w, hh, m⟩ := q
      simp only
      split
      · exact Sim.ok ⟨rfl, rfl⟩
      · refine Sim.bind_same fun data => ?_
        refine Sim.bind (readData_sim (h4 (by simp)) _) ?_
        rintro ⟨s, d, r⟩ ⟨t, d', r'⟩ ⟨h5, h6, h7⟩
        simp only [Prod.mk.injEq] at h5 h6 h7
        obtain ⟨rfl, rfl⟩ := h5
        simp only
        cases r
        · simp only [Bool.false_eq_true, if_false]
          refine Sim.bind (checkFileEnd_sim (h7 rfl)) ?_
          rintro ⟨s, b⟩ ⟨t, b'⟩ h8
          exact Sim.ok ⟨h8, rfl⟩
        · simp only [if_true]
          exact Sim.ok ⟨by simp [(h6 rfl).1, (h6 rfl).2], rfl⟩
  · simp only [ne_eq, hu, not_false_eq_true, if_true]
    exact Sim.ok ⟨rfl, rfl⟩

end SP
