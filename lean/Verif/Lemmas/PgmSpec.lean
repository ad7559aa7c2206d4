import Verif.Lemmas.PgmRead
import Verif.Lemmas.PgmWrite
/-!
# Layouts, numbers and images in terms of the specification
-/
namespace SP

/-! ## Instructions -/

/-- What is kept by a state of the lexer. -/
def LexState.kept : LexState → Text
  | .instruction t => t
  | _ => []

theorem lex_valid (s : Text) (st : LexState) (hst : ∀ b, st = .instruction b → IsInstruction b) :
    ∀ t ∈ lex st s, IsInstruction t ∧ ∀ c ∈ t, c ∈ st.kept ∨ c ∈ s := by
  induction s generalizing st with
  | nil =>
    cases st with
    | between => simp [lex]
    | comment => simp [lex]
    | instruction b =>
      intro t ht
      simp only [lex, List.mem_singleton] at ht
      subst ht
      exact ⟨hst _ rfl, fun c hc => .inl hc⟩
  | cons a s ih =>
    have weaken : ∀ st' : LexState, st'.kept = [] → (∀ b, st' = .instruction b → IsInstruction b) →
        ∀ t ∈ lex st' s, IsInstruction t ∧ ∀ c ∈ t, c ∈ st.kept ∨ c ∈ a :: s := by
      intro st' hk hst' t ht
      obtain ⟨h1, h2⟩ := ih st' hst' t ht
      refine ⟨h1, fun c hc => ?_⟩
      rcases h2 c hc with h | h
      · rw [hk] at h; simp at h
      · exact .inr (List.mem_cons_of_mem _ h)
    cases st with
    | between =>
      intro t ht
      simp only [lex] at ht
      split at ht
      · exact weaken .between rfl (by simp) t ht
      · rename_i hs
        split at ht
        · exact weaken .comment rfl (by simp) t ht
        · rename_i hh
          have hi : IsInstruction [a] := ⟨by simp, by simpa using hs, by simpa using hh⟩
          obtain ⟨h1, h2⟩ := ih (.instruction [a]) (by rintro b ⟨⟩; exact hi) t ht
          refine ⟨h1, fun c hc => ?_⟩
          rcases h2 c hc with h | h
          · simp only [LexState.kept, List.mem_singleton] at h
            exact .inr (by simp [h])
          · exact .inr (List.mem_cons_of_mem _ h)
    | comment =>
      intro t ht
      simp only [lex] at ht
      split at ht
      · exact weaken .between rfl (by simp) t ht
      · exact weaken .comment rfl (by simp) t ht
    | instruction b =>
      have hb := hst _ rfl
      intro t ht
      simp only [lex] at ht
      split at ht
      · rcases List.mem_cons.1 ht with rfl | ht
        · exact ⟨hb, fun c hc => .inl hc⟩
        · exact weaken .between rfl (by simp) t ht
      · rename_i hs
        have hi : IsInstruction (b ++ [a]) := by
          refine ⟨by simp, ?_, ?_⟩
          · intro c hc
            rcases List.mem_append.1 hc with h | h
            · exact hb.2.1 c h
            · simp only [List.mem_singleton] at h
              subst h
              simpa using hs
          · rw [List.head?_append_of_ne_nil _ hb.1]
            exact hb.2.2
        obtain ⟨h1, h2⟩ := ih (.instruction (b ++ [a])) (by rintro b ⟨⟩; exact hi) t ht
        refine ⟨h1, fun c hc => ?_⟩
        rcases h2 c hc with h | h
        · simp only [LexState.kept, List.mem_append, List.mem_singleton] at h
          rcases h with h | h
          · exact .inl h
          · exact .inr (by simp [h])
        · exact .inr (List.mem_cons_of_mem _ h)

theorem instructions_valid {s t : Text} (h : t ∈ instructions s) : IsInstruction t :=
  (lex_valid s .between (by simp) t h).1

theorem instructions_mem {s t : Text} (h : t ∈ instructions s) {c : UInt8} (hc : c ∈ t) : c ∈ s := by
  rcases (lex_valid s .between (by simp) t h).2 c hc with h | h
  · simp [LexState.kept] at h
  · exact h

theorem lexC_line {b : Text} (hb : newline ∉ b) (s : Text) : lex .comment (b ++ newline :: s) = instructions s := by
  induction b with
  | nil => simp [lex, instructions]
  | cons c b ih =>
    simp only [List.mem_cons, not_or] at hb
    rw [List.cons_append, lex, if_neg (fun h => hb.1 h.symm)]
    exact ih hb.2

theorem lexC_end {b : Text} (hb : newline ∉ b) : lex .comment b = [] := by
  induction b with
  | nil => rfl
  | cons c b ih =>
    simp only [List.mem_cons, not_or] at hb
    rw [lex, if_neg (fun h => hb.1 h.symm)]
    exact ih hb.2

theorem blank_instructions {b : Text} (h : Blank b) (s : Text) : instructions (b ++ s) = instructions s := by
  induction h with
  | nil => rfl
  | space hc _ ih => rw [List.cons_append, instructions_space hc, ih]
  | comment hb _ ih =>
    rw [List.cons_append, instructions_hash, List.append_assoc, List.cons_append, lexC_line hb, ih]

theorem finalBlank_instructions {s : Text} (h : FinalBlank s) : instructions s = [] := by
  rcases h with h | ⟨a, b, ha, hb, rfl⟩
  · have := blank_instructions h []
    simpa using this
  · rw [blank_instructions ha, instructions_hash, lexC_end hb]

theorem dropWhile_all {p : UInt8 → Bool} {s : Text} (h : ∀ c ∈ s, p c = true) : s.dropWhile p = [] := by
  induction s with
  | nil => rfl
  | cons c s ih =>
    rw [List.dropWhile_cons_of_pos (h c (by simp)), ih fun d hd => h d (by simp [hd])]

theorem layout_instructions {ts : List Text} {s : Text} (h : Layout ts s) : instructions s = ts := by
  induction h with
  | blank h => exact finalBlank_instructions h
  | last ht =>
    rename_i t
    obtain ⟨h1, h2, h3⟩ := ht
    cases t with
    | nil => exact absurd rfl h1
    | cons a t =>
      have ha := h2 a (by simp)
      have hh : a ≠ hash := by simpa using h3
      simp only [instructions, lex, ha, Bool.false_eq_true, if_false, hh]
      rw [lex_instruction]
      have hall : ∀ c ∈ t, (!isSpace c) = true := fun c hc => by simp [h2 c (by simp [hc])]
      rw [takeWhile_all hall]
      have : t.dropWhile (fun c => !isSpace c) = [] := dropWhile_all hall
      rw [this]
      simp
  | cons ht hc _ ih => rw [instructions_cons ht hc, ih]
  | lead hb _ ih => rw [blank_instructions hb, ih]

/-- A text without instructions is blank. -/
theorem blank_of_lex (s : Text) :
    (instructions s = [] → FinalBlank s) ∧
    (lex .comment s = [] → (newline ∉ s) ∨ ∃ b r, newline ∉ b ∧ s = b ++ newline :: r ∧ FinalBlank r) := by
  induction s with
  | nil => exact ⟨fun _ => .inl .nil, fun _ => .inl (by simp)⟩
  | cons c s ih =>
    constructor
    · intro h
      by_cases hs : isSpace c = true
      · rw [instructions_space hs] at h
        rcases ih.1 h with h | ⟨a, b, ha, hb, rfl⟩
        · exact .inl (.space hs h)
        · exact .inr ⟨c :: a, b, .space hs ha, hb, rfl⟩
      · by_cases hh : c = hash
        · subst hh
          rw [instructions_hash] at h
          rcases ih.2 h with h | ⟨b, r, hb, rfl, hf⟩
          · exact .inr ⟨[], s, .nil, h, rfl⟩
          · rcases hf with h | ⟨a, d, ha, hd, rfl⟩
            · exact .inl (.comment hb h)
            · refine .inr ⟨hash :: (b ++ newline :: a), d, .comment hb ha, hd, by simp⟩
        · simp only [instructions, lex, hs, if_false, hh, Bool.false_eq_true] at h
          rw [lex_instruction] at h
          cases h
    · intro h
      by_cases hn : c = newline
      · subst hn
        simp only [lex, if_true] at h
        exact .inr ⟨[], s, by simp, rfl, ih.1 h⟩
      · simp only [lex, hn, if_false] at h
        rcases ih.2 h with h | ⟨b, r, hb, rfl, hf⟩
        · exact .inl (by simp [h, Ne.symm hn])
        · exact .inr ⟨c :: b, r, by simp [hb, Ne.symm hn], rfl, hf⟩

theorem instructions_nil_iff {s : Text} : instructions s = [] ↔ FinalBlank s :=
  ⟨(blank_of_lex s).1, finalBlank_instructions⟩

theorem plain_instructions {ts : List Text} (h : ∀ t ∈ ts, IsInstruction t) : instructions (plain ts) = ts := by
  induction ts with
  | nil => rfl
  | cons t ts ih =>
    have e : plain (t :: ts) = t ++ 32 :: plain ts := by simp [plain]
    rw [e, instructions_cons (h t (by simp)) (by decide), ih fun u hu => h u (by simp [hu])]

theorem Layout.valid {ts : List Text} {s : Text} (h : Layout ts s) : ∀ t ∈ ts, IsInstruction t := by
  induction h with
  | blank h => simp
  | last ht => simpa using ht
  | cons ht hc _ ih =>
    intro t ht'
    rcases List.mem_cons.1 ht' with rfl | h
    · exact ht
    · exact ih _ h
  | lead hb _ ih => exact ih

/-! ## Numbers -/

theorem takeWhile_digits {ds r : Text} (hd : ∀ d ∈ ds, isDigit d = true) (hr : ∀ d, r.head? = some d → isDigit d = false) :
    (ds ++ r).takeWhile isDigit = ds := by
  induction ds with
  | nil =>
    cases r with
    | nil => rfl
    | cons c r => exact List.takeWhile_cons_of_neg (by simp [hr c rfl])
  | cons d ds ih =>
    rw [List.cons_append, List.takeWhile_cons_of_pos (hd d (by simp)), ih fun c hc => hd c (by simp [hc])]

theorem dropWhile_head {p : UInt8 → Bool} (s : Text) : ∀ d, (s.dropWhile p).head? = some d → p d = false := by
  induction s with
  | nil => simp
  | cons c s ih =>
    intro d hd
    by_cases h : p c = true
    · rw [List.dropWhile_cons_of_pos h] at hd
      exact ih d hd
    · rw [List.dropWhile_cons_of_neg h] at hd
      simp only [List.head?_cons, Option.some.injEq] at hd
      subst hd
      simpa using h

/-- The sign, the digits and the rest of a text that begins with a number. -/
theorem stoul_split {t sign ds r : Text} (ht : ∀ c ∈ t, isSpace c = false) (e : t = sign ++ ds ++ r)
    (hs : sign ∈ ([[], [43], [45]] : List Text)) (hne : ds ≠ []) (hd : ∀ d ∈ ds, isDigit d = true)
    (hr : ∀ d, r.head? = some d → isDigit d = false) :
    stoulDigits t = ds ∧ ((t.dropWhile isSpace).headD 0 == 45) = decide (sign = [45]) := by
  unfold stoulDigits
  rw [dropWhile_instruction ht]
  simp only [List.mem_cons, List.not_mem_nil, or_false] at hs
  rcases hs with rfl | rfl | rfl
  · cases ds with
    | nil => exact absurd rfl hne
    | cons d ds =>
      have h1 := hd d (by simp)
      have h45 : (d == 45) = false := by
        cases hx : d == 45
        · rfl
        · rw [beq_iff_eq] at hx; subst hx; revert h1; decide
      have h43 : (d == 43) = false := by
        cases hx : d == 43
        · rfl
        · rw [beq_iff_eq] at hx; subst hx; revert h1; decide
      rw [List.nil_append] at e
      have := takeWhile_digits hd hr
      rw [e]
      simp only [List.cons_append, List.headD_cons, h45, h43, Bool.or_self, Bool.false_eq_true, if_false] at this ⊢
      refine ⟨this, by simp⟩
  · have := takeWhile_digits hd hr
    rw [e]
    simp only [List.cons_append, List.nil_append, List.headD_cons, List.tail_cons] at this ⊢
    exact ⟨this, by decide⟩
  · have := takeWhile_digits hd hr
    rw [e]
    simp only [List.cons_append, List.nil_append, List.headD_cons, List.tail_cons] at this ⊢
    exact ⟨this, by decide⟩

theorem stoul_split_exists {t : Text} (ht : ∀ c ∈ t, isSpace c = false) (hne : stoulDigits t ≠ []) :
    ∃ sign ds r, t = sign ++ ds ++ r ∧ sign ∈ ([[], [43], [45]] : List Text) ∧ ds ≠ [] ∧ (∀ d ∈ ds, isDigit d = true) ∧
      (∀ d, r.head? = some d → isDigit d = false) := by
  unfold stoulDigits at hne
  rw [dropWhile_instruction ht] at hne
  cases t with
  | nil => exact absurd rfl hne
  | cons a t =>
    by_cases ha : a = 45 ∨ a = 43
    · have : (a == 45 || a == 43) = true := by
        rw [Bool.or_eq_true, beq_iff_eq, beq_iff_eq]; exact ha
      simp only [List.headD_cons, this, if_true, List.tail_cons] at hne
      refine ⟨[a], t.takeWhile isDigit, t.dropWhile isDigit, ?_, ?_, hne, fun d hd => mem_takeWhile_imp' hd, dropWhile_head t⟩
      · rw [List.append_assoc, List.takeWhile_append_dropWhile]; rfl
      · rcases ha with rfl | rfl <;> simp
    · have : (a == 45 || a == 43) = false := by simpa using ha
      simp only [List.headD_cons, this, Bool.false_eq_true, if_false] at hne
      refine ⟨[], (a :: t).takeWhile isDigit, (a :: t).dropWhile isDigit, ?_, by simp, hne,
        fun d hd => mem_takeWhile_imp' hd, dropWhile_head _⟩
      rw [List.append_assoc, List.takeWhile_append_dropWhile]; rfl

theorem numberOf_iff {t : Text} (h : IsInstruction t) {v : UInt64} : stoul t = .ok v ↔ NumberOf t v := by
  rw [stoul_def]
  constructor
  · intro hv
    by_cases hne : (stoulDigits t).isEmpty = true
    · rw [if_pos hne] at hv; cases hv
    · rw [if_neg hne] at hv
      obtain ⟨sign, ds, r, e, hs, hds, hd, hr⟩ := stoul_split_exists h.2.1 (by simpa using hne)
      obtain ⟨h1, h2⟩ := stoul_split h.2.1 e hs hds hd hr
      rw [h1, h2] at hv
      split at hv
      · cases hv
      · rename_i hlt
        refine ⟨sign, ds, r, e, hs, hds, hd, hr, by omega, ?_⟩
        cases hv
        simp
  · rintro ⟨sign, ds, r, e, hs, hds, hd, hr, hlt, rfl⟩
    obtain ⟨h1, h2⟩ := stoul_split h.2.1 e hs hds hd hr
    rw [h1, h2, if_neg (by simpa using hds), if_neg (by omega)]
    simp

theorem tooLarge_iff {t : Text} (h : IsInstruction t) : stoul t = .error (.exc .outOfRange) ↔ TooLarge t := by
  rw [stoul_def]
  constructor
  · intro hv
    by_cases hne : (stoulDigits t).isEmpty = true
    · rw [if_pos hne] at hv; cases hv
    · rw [if_neg hne] at hv
      obtain ⟨sign, ds, r, e, hs, hds, hd, hr⟩ := stoul_split_exists h.2.1 (by simpa using hne)
      obtain ⟨h1, h2⟩ := stoul_split h.2.1 e hs hds hd hr
      rw [h1] at hv
      split at hv
      · rename_i hle
        exact ⟨sign, ds, r, e, hs, hds, hd, hr, hle⟩
      · cases hv
  · rintro ⟨sign, ds, r, e, hs, hds, hd, hr, hle⟩
    obtain ⟨h1, h2⟩ := stoul_split h.2.1 e hs hds hd hr
    rw [h1, if_neg (by simpa using hds), if_pos hle]

/-- The outcome of reading `n` numbers. -/
theorem numbers_cases (n : Nat) {ts : List Text} (hts : ∀ t ∈ ts, IsInstruction t) :
    (∃ ds rest vs, ts = ds ++ rest ∧ ds.length = n ∧ List.Forall₂ NumberOf ds vs ∧ numbers n ts = .ok (some (vs, rest))) ∨
    (numbers n ts = .ok none ∧ ((ts.length < n) ∨ ∃ t ∈ ts.take n, ¬ LikeNumber t)) ∨
    (numbers n ts = .error (.exc .outOfRange) ∧ ∃ t ∈ ts.take n, TooLarge t) := by
  induction n generalizing ts with
  | zero => exact .inl ⟨[], ts, [], rfl, rfl, .nil, rfl⟩
  | succ n ih =>
    cases ts with
    | nil => exact .inr (.inl ⟨rfl, .inl (by simp)⟩)
    | cons t ts =>
      have ht := hts t (by simp)
      rcases catch_cases t with ⟨v, h1, h2⟩ | ⟨h1, h2⟩ | ⟨h1, h2⟩
      · rw [numbers_cons h1]
        rcases ih (ts := ts) (fun u hu => hts u (by simp [hu])) with ⟨ds, rest, vs, rfl, h3, h4, h5⟩ | ⟨h3, h4⟩ | ⟨h3, u, hu, h4⟩
        · exact .inl ⟨t :: ds, rest, v :: vs, rfl, by simp [h3], .cons ((numberOf_iff ht).1 h1) h4, by rw [h5]; rfl⟩
        · refine .inr (.inl ⟨by rw [h3]; rfl, ?_⟩)
          rcases h4 with h4 | ⟨u, hu, h4⟩
          · exact .inl (by simp; omega)
          · exact .inr ⟨u, by simp [hu], h4⟩
        · exact .inr (.inr ⟨by rw [h3]; rfl, u, by simp [hu], h4⟩)
      · exact .inr (.inl ⟨numbers_stop (.inr ⟨t, ts, rfl, ht, (stoul_invalid ht.2.1).1 h1⟩), .inr ⟨t, by simp, (stoul_invalid ht.2.1).1 h1⟩⟩)
      · exact .inr (.inr ⟨numbers_range h1, t, by simp, (tooLarge_iff ht).1 h1⟩)

theorem numbers_of_forall {ds : List Text} (hds : ∀ t ∈ ds, IsInstruction t) {vs : List UInt64} (h : List.Forall₂ NumberOf ds vs)
    (rest : List Text) : numbers ds.length (ds ++ rest) = .ok (some (vs, rest)) := by
  induction h with
  | nil => rfl
  | cons h1 _ ih =>
    rename_i t v ds vs _
    rw [List.length_cons, List.cons_append, numbers_cons ((numberOf_iff (hds t (by simp))).2 h1), ih fun u hu => hds u (by simp [hu])]
    rfl

/-! ## The whole -/

theorem NumberOf.unique {t : Text} (h : IsInstruction t) {v w : UInt64} (hv : NumberOf t v) (hw : NumberOf t w) : v = w := by
  rw [← numberOf_iff h] at hv hw
  rw [hv] at hw
  cases hw
  rfl

theorem NumberOf.like {t : Text} (h : IsInstruction t) {v : UInt64} (hv : NumberOf t v) : LikeNumber t :=
  stoul_ok_like h ((numberOf_iff h).2 hv)

theorem forall₂_length {ds : List Text} {vs : List UInt64} (h : List.Forall₂ NumberOf ds vs) : ds.length = vs.length := h.length_eq

theorem PgmOf.wellFormed {ts rest : List Text} {im : Image} (hts : ∀ t ∈ ts ++ rest, IsInstruction t) (h : PgmOf ts im) :
    ¬ Malformed (ts ++ rest) := by
  obtain ⟨a, b, c, ds, rfl, h1, h2, h3, h4, h5, h6⟩ := h
  simp only [List.cons_append] at hts ⊢
  have ha := hts a (by simp)
  have hb := hts b (by simp)
  have hc := hts c (by simp)
  have hl := forall₂_length h6
  have hd : HeaderOf (FORMAT_CODE :: a :: b :: c :: (ds ++ rest)) im.width im.height im.maxValue := ⟨a, b, c, _, rfl, h1, h2, h3⟩
  have huniq : ∀ w h m, HeaderOf (FORMAT_CODE :: a :: b :: c :: (ds ++ rest)) w h m → w = im.width ∧ h = im.height ∧ m = im.maxValue := by
    rintro w h m ⟨a', b', c', ds', e, k1, k2, k3⟩
    simp only [List.cons.injEq, true_and] at e
    obtain ⟨rfl, rfl, rfl, -⟩ := e
    exact ⟨k1.unique ha h1, k2.unique hb h2, k3.unique hc h3⟩
  rintro (h | (h | ⟨t, ht, h⟩) | ⟨w, h, m, hh, hm⟩ | ⟨w, h, m, hh, hm⟩)
  · simp at h
  · simp at h
    omega
  · simp only [List.drop_succ_cons, List.drop_zero, List.take_succ_cons, List.take_zero, List.mem_cons, List.not_mem_nil,
      or_false] at ht
    rcases ht with rfl | rfl | rfl
    · exact h (h1.like ha)
    · exact h (h2.like hb)
    · exact h (h3.like hc)
  · obtain ⟨rfl, rfl, rfl⟩ := huniq _ _ _ hh
    exact absurd hm (by rw [UInt64.not_lt]; exact h4)
  · obtain ⟨rfl, rfl, rfl⟩ := huniq _ _ _ hh
    rw [← h5] at hm
    have hl' : ds.length = im.data.size := by rw [hl]; simp
    rcases hm with hm | ⟨t, ht, hm⟩
    · simp at hm
      omega
    · simp only [List.drop_succ_cons, List.drop_zero] at ht
      rw [List.take_append_of_le_length (by omega), List.take_of_length_le (by omega)] at ht
      obtain ⟨i, hi, rfl⟩ := List.getElem_of_mem ht
      have hv := List.Forall₂.get h6 hi (by omega)
      exact hm (hv.like (hts _ (by simp)))

/-- All outcomes of reading. -/
theorem readSpec_cases (limit : Nat) (held : Option Image) {ts : List Text} (hts : ∀ t ∈ ts, IsInstruction t) :
    (readSpec limit held ts = .ok (true, held) ∧ Malformed ts) ∨
    (readSpec limit held ts = .error (.exc .outOfRange) ∧ ∃ t ∈ ts, TooLarge t) ∨
    ((readSpec limit held ts = .error (.exc .lengthError) ∨ readSpec limit held ts = .error (.exc .badAlloc)) ∧
      ∃ w h m, HeaderOf ts w h m ∧ (1152921504606846975 < (w * h).toNat ∨ limit < (w * h).toNat)) ∨
    (readSpec limit held ts = .error .ub ∧ ∃ w h m, HeaderOf ts w h m ∧ 18446744073709551616 ≤ w.toNat * h.toNat) ∨
    (∃ im, PgmOf ts im ∧ readSpec limit held ts = .ok (false, some im) ∧ im.data.size ≤ 1152921504606846975 ∧ im.data.size ≤ limit) ∨
    (∃ ts' t rest im, ts = ts' ++ t :: rest ∧ PgmOf ts' im ∧
      (readSpec limit held ts = .error .ub ∧ BadChar (t.headD 0) ∨
        readSpec limit held ts = .ok (true, some im) ∧ ¬ BadChar (t.headD 0))) := by
  unfold readSpec
  cases ts with
  | nil => exact .inl ⟨rfl, .inl (by simp)⟩
  | cons t ts =>
    simp only
    by_cases ht : t = FORMAT_CODE
    · subst ht
      rw [if_neg (by simp)]
      have hts' : ∀ t ∈ ts, IsInstruction t := fun u hu => hts u (by simp [hu])
      rcases numbers_cases 3 hts' with ⟨ds, rest, vs, rfl, h1, h2, h3⟩ | ⟨h1, h2⟩ | ⟨h1, t, ht, h2⟩
      · have hl := forall₂_length h2
        rw [h1] at hl
        obtain ⟨w, h, m, rfl⟩ : ∃ w h m, vs = [w, h, m] := by
          match vs, hl with
          | [w, h, m], _ => exact ⟨w, h, m, rfl⟩
        obtain ⟨a, b, c, rfl⟩ : ∃ a b c, ds = [a, b, c] := by
          match ds, h1 with
          | [w, h, m], _ => exact ⟨w, h, m, rfl⟩
        simp only [List.forall₂_cons, List.forall₂_nil_right_iff, and_true] at h2
        obtain ⟨ka, kb, kc⟩ := h2
        have hd : HeaderOf (FORMAT_CODE :: ([a, b, c] ++ rest)) w h m := ⟨a, b, c, rest, rfl, ka, kb, kc⟩
        rw [h3]
        simp only
        by_cases hm : m > MAX_VALUE_LIMIT
        · rw [if_pos hm]
          exact .inl ⟨rfl, .inr (.inr (.inl ⟨w, h, m, hd, hm⟩))⟩
        · rw [if_neg hm]
          cases hr : resizeEmpty limit (w * h) with
          | error e =>
            right; right; left
            unfold resizeEmpty at hr
            split at hr
            · rename_i hbig
              cases hr
              exact ⟨.inl rfl, w, h, m, hd, .inl hbig⟩
            · split at hr
              · rename_i hbig
                cases hr
                exact ⟨.inr rfl, w, h, m, hd, .inr hbig⟩
              · cases hr
          | ok d =>
            simp only
            have hrest : ∀ t ∈ rest, IsInstruction t := fun u hu => hts' u (by simp [hu])
            have hmal : ∀ n, n ≤ w.toNat * h.toNat → (rest.length < n ∨ ∃ t ∈ rest.take n, ¬ LikeNumber t) →
                Malformed (FORMAT_CODE :: ([a, b, c] ++ rest)) := by
              intro n hn hx
              refine .inr (.inr (.inr ⟨w, h, m, hd, ?_⟩))
              rcases hx with hx | ⟨t, ht, hx⟩
              · left; simp; omega
              · refine .inr ⟨t, ?_, hx⟩
                simp only [List.cons_append, List.nil_append, List.drop_succ_cons, List.drop_zero]
                exact List.take_subset_take_left _ hn ht
            unfold dataSpec
            by_cases hfit : w.toNat * h.toNat < 18446744073709551616
            · rw [if_pos hfit]
              rcases numbers_cases (w.toNat * h.toNat) hrest with ⟨ds, rest', vs, rfl, k1, k2, k3⟩ | ⟨k1, k2⟩ | ⟨k1, t, ht, k2⟩
              · have hkl := forall₂_length k2
                have hp : PgmOf (FORMAT_CODE :: ([a, b, c] ++ ds)) ⟨w, h, m, vs.toArray⟩ :=
                  ⟨a, b, c, ds, rfl, ka, kb, kc, UInt64.not_lt.1 hm, by simp only [List.size_toArray]; omega, k2⟩
                rw [k3]
                cases rest' with
                | nil =>
                  right; right; right; right; left
                  rw [List.append_nil]
                  refine ⟨_, hp, rfl, ?_⟩
                  unfold resizeEmpty at hr
                  rw [mul_toNat hfit] at hr
                  split at hr
                  · cases hr
                  · split at hr
                    · cases hr
                    · simp only [List.size_toArray]
                      omega
                | cons t rest' =>
                  right; right; right; right; right
                  refine ⟨_, t, rest', _, by simp, hp, ?_⟩
                  simp only
                  by_cases hbad : BadChar (t.headD 0)
                  · exact .inl ⟨if_pos hbad, hbad⟩
                  · exact .inr ⟨if_neg hbad, hbad⟩
              · rw [k1]
                exact .inl ⟨rfl, hmal _ (Nat.le_refl _) k2⟩
              · rw [k1]
                exact .inr (.inl ⟨rfl, t, by simp [List.mem_of_mem_take ht], k2⟩)
            · rw [if_neg hfit]
              unfold overflowSpec
              have hlt := toNat_lt' (w * h)
              rcases numbers_cases ((w * h).toNat + 1) hrest with ⟨ds, rest', vs, rfl, k1, k2, k3⟩ | ⟨k1, k2⟩ | ⟨k1, t, ht, k2⟩
              · rw [k3]
                exact .inr (.inr (.inr (.inl ⟨rfl, w, h, m, hd, by omega⟩)))
              · rw [k1]
                exact .inl ⟨rfl, hmal _ (by omega) k2⟩
              · rw [k1]
                exact .inr (.inl ⟨rfl, t, by simp [List.mem_of_mem_take ht], k2⟩)
      · rw [h1]
        refine .inl ⟨rfl, .inr (.inl ?_)⟩
        rcases h2 with h2 | ⟨t, ht, h2⟩
        · left; simp; omega
        · right
          exact ⟨t, by simpa using ht, h2⟩
      · rw [h1]
        exact .inr (.inl ⟨rfl, t, by simp [List.mem_of_mem_take ht], h2⟩)
    · rw [if_pos ht]
      exact .inl ⟨rfl, .inl (by simpa using ht)⟩

/-- Images that fit the memory are read. -/
theorem readSpec_accept {limit : Nat} (held : Option Image) {ts : List Text} {im : Image} (hts : ∀ t ∈ ts, IsInstruction t)
    (h : PgmOf ts im) (h60 : im.data.size ≤ 1152921504606846975) (hlim : im.data.size ≤ limit) :
    readSpec limit held ts = .ok (false, some im) := by
  obtain ⟨a, b, c, ds, rfl, h1, h2, h3, h4, h5, h6⟩ := h
  obtain ⟨w, ht, m, data⟩ := im
  simp only at h1 h2 h3 h4 h5 h6 h60 hlim
  have hl := forall₂_length h6
  have hfit : w.toNat * ht.toNat < 18446744073709551616 := by omega
  have n3 := numbers_of_forall (ds := [a, b, c]) (fun u hu => hts u (by
    simp only [List.mem_cons, List.not_mem_nil, or_false] at hu ⊢
    rcases hu with rfl | rfl | rfl <;> simp)) (vs := [w, ht, m]) (.cons h1 (.cons h2 (.cons h3 .nil))) ds
  have nd := numbers_of_forall (ds := ds) (fun u hu => hts u (by simp [hu])) h6 []
  rw [List.append_nil] at nd
  unfold readSpec
  simp only [List.length_cons, List.length_nil, List.cons_append, List.nil_append, Nat.zero_add, Nat.reduceAdd] at n3
  simp only [ne_eq, not_true_eq_false, if_false]
  rw [n3]
  simp only
  rw [if_neg (by rw [gt_iff_lt, UInt64.not_lt]; exact h4)]
  unfold resizeEmpty
  rw [mul_toNat hfit, if_neg (by omega), if_neg (by omega)]
  simp only
  unfold dataSpec
  rw [if_pos hfit, ← h5, show data.size = ds.length by simp [hl], nd]

end SP
