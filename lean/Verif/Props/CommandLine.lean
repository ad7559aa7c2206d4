import Verif.Spec.CommandLine
import Verif.Props.Main
import Mathlib.Data.List.TakeWhile
/-!
# C84, C85: the command line
-/
namespace SP
open FloatOps

/-! ## Names of options -/

theorem Opt.all_filter {p : Opt → Bool} {o : Opt} (h : ∀ o', p o' = true ↔ o' = o) : Opt.all.filter p = [o] := by
  have : p = fun o' => decide (o' = o) := funext fun o' => by
    rw [Bool.eq_iff_iff, h o', decide_eq_true_eq]
  rw [this]
  cases o <;> rfl

theorem Opt.all_filter_nil {p : Opt → Bool} (h : ∀ o', p o' = false) : Opt.all.filter p = [] := by
  simp [h]

theorem Opt.head_long (o : Opt) : o.long.head? = some o.short := by cases o <;> rfl

theorem Opt.short_inj {o o' : Opt} (h : o.short = o'.short) : o = o' := by
  cases o <;> cases o' <;> first | rfl | exact absurd h (by decide)

theorem Opt.short_ne (o : Opt) : o.short ≠ dash ∧ o.short ≠ equalsSign := by cases o <;> decide

theorem Opt.long_no_equals (o : Opt) : equalsSign ∉ o.long := by cases o <;> decide

theorem prefix_head {key : Text} {o : Opt} (h : key <+: o.long) (hk : key ≠ []) : key.head? = some o.short := by
  obtain ⟨t, ht⟩ := h
  rw [← o.head_long, ← ht]
  cases key with
  | nil => exact absurd rfl hk
  | cons a b => rfl

theorem Opt.Named.unique {o o' : Opt} {key : Text} (h : o.Named key) (h' : o'.Named key) : o = o' := by
  obtain ⟨hk, h⟩ := h
  obtain ⟨-, h'⟩ := h'
  rcases h with h | rfl <;> rcases h' with h' | h'
  · exact Opt.short_inj (by simpa using (prefix_head h hk).symm.trans (prefix_head h' hk))
  · subst h'
    have := prefix_head h hk
    exact absurd (by simpa using this.symm) o.short_ne.1
  · have := prefix_head h' hk
    exact absurd (by simpa using this.symm) o'.short_ne.1
  · exact Opt.short_inj (by simpa using h')

theorem Opt.Named.no_equals {o : Opt} {key : Text} (h : o.Named key) : equalsSign ∉ key := by
  rcases h.2 with h | rfl
  · exact fun hm => o.long_no_equals (h.subset hm)
  · have := o.short_ne.2
    simp only [List.mem_cons, List.not_mem_nil, or_false, not_or]
    exact ⟨by decide, this.symm⟩

theorem Opt.find_named {o : Opt} {key : Text} (h : o.Named key) : Opt.find true key = some o := by
  unfold Opt.find
  by_cases hf : o.long = key ∨ [dash, o.short] = key
  · rw [Opt.all_filter (o := o)]
    intro o'
    rw [decide_eq_true_eq]
    constructor
    · intro ho'
      refine Opt.Named.unique ⟨h.1, ?_⟩ h
      rcases ho' with rfl | rfl
      · exact .inl List.prefix_rfl
      · exact .inr rfl
    · rintro rfl
      exact hf
  · rw [Opt.all_filter_nil]
    · rw [Opt.all_filter (o := o)]
      · rfl
      · intro o'
        rw [List.isPrefixOf_iff_prefix]
        constructor
        · intro ho'
          exact Opt.Named.unique ⟨h.1, .inl ho'⟩ h
        · rintro rfl
          rcases h.2 with h | h
          · exact h
          · exact absurd (.inr h.symm) hf
    · intro o'
      rw [decide_eq_false_iff_not]
      intro ho'
      have : o' = o := by
        refine Opt.Named.unique ⟨h.1, ?_⟩ h
        rcases ho' with rfl | rfl
        · exact .inl List.prefix_rfl
        · exact .inr rfl
      subst this
      exact hf ho'

theorem Opt.named_find {o : Opt} {key : Text} (hk : key ≠ []) (h : Opt.find true key = some o) : o.Named key := by
  unfold Opt.find at h
  refine ⟨hk, ?_⟩
  cases h1 : Opt.all.filter fun o => o.long = key ∨ [dash, o.short] = key with
  | cons o' l =>
    rw [h1] at h
    simp only [Option.some.injEq] at h
    subst h
    have := List.mem_filter.1 (h1 ▸ List.mem_cons_self (a := o') (l := l))
    rcases of_decide_eq_true this.2 with rfl | rfl
    · exact .inl List.prefix_rfl
    · exact .inr rfl
  | nil =>
    rw [h1] at h
    simp only [if_true] at h
    split at h
    · rename_i o' h2
      simp only [Option.some.injEq] at h
      subst h
      have := List.mem_filter.1 (h2 ▸ List.mem_cons_self (a := o') (l := []))
      exact .inl (List.isPrefixOf_iff_prefix.1 this.2)
    · cases h

theorem Opt.find_letter {c : UInt8} {o : Opt} : Opt.find false [dash, c] = some o ↔ c = o.short := by
  have hl : ∀ o' : Opt, o'.long ≠ [dash, c] := by
    intro o' h
    have := o'.head_long
    rw [h] at this
    exact o'.short_ne.1 (by simpa using this.symm)
  constructor
  · intro h
    unfold Opt.find at h
    split at h
    · rename_i o' l h1
      simp only [Option.some.injEq] at h
      subst h
      have := List.mem_filter.1 (h1 ▸ List.mem_cons_self (a := o') (l := l))
      rcases of_decide_eq_true this.2 with h | h
      · exact absurd h (hl _)
      · simpa using h.symm
    · simp at h
  · rintro rfl
    unfold Opt.find
    rw [Opt.all_filter (o := o)]
    intro o'
    rw [decide_eq_true_eq]
    constructor
    · rintro (h | h)
      · exact absurd h (hl _)
      · exact Opt.short_inj (by simpa using h)
    · rintro rfl
      exact .inr rfl

theorem Opt.named_letter (o : Opt) : o.Named [dash, o.short] := ⟨by simp, .inr rfl⟩

theorem Opt.letter_named {o : Opt} {c : UInt8} (h : o.Named [dash, c]) : c = o.short := by
  rcases h.2 with h1 | h1
  · have := prefix_head h1 h.1
    exact absurd (by simpa using this.symm) o.short_ne.1
  · simpa using h1

theorem Opt.takesValue_iff (o : Opt) : o.takesValue = true ↔ o ≠ .help := by cases o <;> decide

/-! ## Words -/

theorem shortWord_letters (k n : Nat) (c : UInt8) (rest : Text) :
    shortWord k Opt.help.short (List.replicate n Opt.help.short ++ c :: rest) = shortWord (k + n + 1) c rest := by
  induction n generalizing k with
  | zero =>
    rw [List.replicate_zero, List.nil_append, shortWord, (Opt.find_letter (o := .help)).2 rfl]
    rfl
  | succ n ih =>
    rw [List.replicate_succ, List.cons_append, shortWord, (Opt.find_letter (o := .help)).2 rfl]
    show shortWord (k + 1) _ _ = _
    rw [ih]
    congr 1
    omega

/-- What a word of letters is. -/
theorem shortWord_cases (k : Nat) (c : UInt8) (rest : Text) : ∃ n a adj, c :: rest = List.replicate n Opt.help.short ++ a :: adj ∧
    shortWord k c rest = .option (k + n) [dash, a] (if adj = [] then none else some adj) ∧ (adj ≠ [] → a ≠ Opt.help.short) := by
  induction rest generalizing k c with
  | nil => exact ⟨0, c, [], rfl, rfl, fun h => absurd rfl h⟩
  | cons b rest ih =>
    by_cases hc : c = Opt.help.short
    · subst hc
      obtain ⟨n, a, adj, h1, h2, h3⟩ := ih (k + 1) b
      refine ⟨n + 1, a, adj, ?_, ?_, h3⟩
      · rw [List.replicate_succ, List.cons_append, ← h1]
      · rw [shortWord, (Opt.find_letter (o := .help)).2 rfl]
        show shortWord (k + 1) b rest = _
        rw [h2]
        congr 1
        omega
    · refine ⟨0, c, b :: rest, rfl, ?_, fun _ => hc⟩
      rw [shortWord]
      cases hf : Opt.find false [dash, c] with
      | none => rfl
      | some o =>
        have : o ≠ .help := by
          rintro rfl
          exact hc (Opt.find_letter.1 hf)
        simp only
        rw [if_pos ((o.takesValue_iff).2 this)]
        rfl

theorem word_short {c : UInt8} {rest : Text} (hc : c ≠ dash) : word (dash :: c :: rest) = shortWord 0 c rest := by
  unfold dash at *
  rw [word.eq_def]
  split
  · rename_i h; simp only [List.cons.injEq] at h; exact absurd h.2.1 hc
  · rename_i h; simp only [List.cons.injEq] at h; exact absurd h.2.1 hc
  · rename_i h1; simp only [List.cons.injEq, true_and] at h1; obtain ⟨rfl, rfl⟩ := h1; rfl
  · rename_i h; exact absurd rfl (h c rest)

theorem word_long {name : Text} (hn : name ≠ []) : word (dash :: dash :: name) =
    match name.dropWhile (· ≠ equalsSign) with
    | [] => .option 0 name none
    | [_] => .emptyValue
    | _ :: adjacent => .option 0 (name.takeWhile (· ≠ equalsSign)) (some adjacent) := by
  cases name with
  | nil => exact absurd rfl hn
  | cons a name => rfl

theorem word_notOption {w : Text} (h : NotOption w) : word w = .plain := by
  rcases h with h | rfl
  · cases w with
    | nil => rfl
    | cons a w =>
      have ha : a ≠ 45 := by simpa [dash] using h
      rw [word.eq_def]
      split
      · rename_i h; simp only [List.cons.injEq] at h; exact absurd h.1 ha
      · rename_i h; simp only [List.cons.injEq] at h; exact absurd h.1 ha
      · rename_i h; simp only [List.cons.injEq] at h; exact absurd h.1 ha
      · rfl
  · rfl

/-- The cases of a word. -/
theorem word_cases (w : Text) : (NotOption w ∧ word w = .plain) ∨ (w = [dash, dash] ∧ word w = .terminator) ∨
    (∃ name, name ≠ [] ∧ equalsSign ∉ name ∧ w = dash :: dash :: name ∧ word w = .option 0 name none) ∨
    (∃ name, equalsSign ∉ name ∧ w = dash :: dash :: (name ++ [equalsSign]) ∧ word w = .emptyValue) ∨
    (∃ name value, equalsSign ∉ name ∧ value ≠ [] ∧ w = dash :: dash :: (name ++ equalsSign :: value) ∧
      word w = .option 0 name (some value)) ∨
    (∃ n a adj, w = helpLetters n ++ a :: adj ∧ w.head? = some dash ∧ w ≠ [dash] ∧ (n = 0 → a ≠ dash) ∧
      (adj ≠ [] → a ≠ Opt.help.short) ∧ word w = .option n [dash, a] (if adj = [] then none else some adj)) := by
  rcases w with _ | ⟨a, _ | ⟨b, w⟩⟩
  · exact .inl ⟨.inl (by simp), rfl⟩
  · refine .inl ?_
    have : NotOption [a] := by
      by_cases h : a = dash
      · exact .inr (by rw [h])
      · exact .inl (by simpa using h)
    exact ⟨this, word_notOption this⟩
  · by_cases ha : a = dash
    · subst ha
      by_cases hb : b = dash
      · subst hb
        by_cases hw : w = []
        · subst hw
          exact .inr (.inl ⟨rfl, rfl⟩)
        · have hword := word_long hw
          have hsplit := List.takeWhile_append_dropWhile (p := (· ≠ equalsSign)) (l := w)
          have hno : equalsSign ∉ w.takeWhile (· ≠ equalsSign) := by
            intro h
            have := List.all_eq_true.1 List.all_takeWhile _ h
            simp at this
          cases hd : w.dropWhile (· ≠ equalsSign) with
          | nil =>
            rw [hd] at hword hsplit
            rw [List.append_nil] at hsplit
            exact .inr (.inr (.inl ⟨w, hw, hsplit ▸ hno, rfl, hword⟩))
          | cons e adj =>
            have he : e = equalsSign := by
              have := List.head?_dropWhile_not (· ≠ equalsSign) w
              rw [hd] at this
              simpa using this
            subst he
            rw [hd] at hword hsplit
            cases adj with
            | nil => exact .inr (.inr (.inr (.inl ⟨_, hno, by rw [hsplit], hword⟩)))
            | cons v adj =>
              exact .inr (.inr (.inr (.inr (.inl ⟨_, v :: adj, hno, by simp, by rw [hsplit], hword⟩))))
      · obtain ⟨n, c, adj, h1, h2, h3⟩ := shortWord_cases 0 b w
        refine .inr (.inr (.inr (.inr (.inr ⟨n, c, adj, ?_, rfl, by simp, ?_, h3, ?_⟩))))
        · rw [helpLetters, List.cons_append, ← h1]
        · rintro rfl
          rw [List.replicate_zero, List.nil_append] at h1
          simp only [List.cons.injEq] at h1
          rw [← h1.1]
          exact hb
        · rw [word_short hb, h2, Nat.zero_add]
    · have : NotOption (a :: b :: w) := .inl (by simpa using ha)
      exact .inl ⟨this, word_notOption this⟩

theorem not_notOption {w : Text} (h1 : w.head? = some dash) (h2 : w ≠ [dash]) : ¬ NotOption w := by
  rintro (h | h)
  · exact h h1
  · exact h2 h

theorem Library.bad_iff (lib : Library) (w : Text) : lib.bad w = false ↔ lib.Accepts w := by
  unfold Library.bad Library.Accepts
  have nn : ∀ t : Text, ¬ NotOption (dash :: dash :: t) := fun t => not_notOption rfl (by simp)
  rcases word_cases w with ⟨h, hw⟩ | ⟨h, hw⟩ | ⟨name, h0, h1, h2, hw⟩ | ⟨name, h1, h2, hw⟩ | ⟨name, value, h1, h1', h2, hw⟩ |
      ⟨n, a, adj, h1, h2, h2', h3, h4, hw⟩ <;> rw [hw]
  · simp [h]
  · simp [h]
  · subst h2
    simp only [nn, false_or, List.cons.injEq, true_and, h0]
    constructor
    · intro h
      refine ⟨h, ?_⟩
      rintro ⟨name', -, rfl⟩
      exact h1 (by simp)
    · exact fun h => h.1
  · subst h2
    simp only [nn, false_or, List.cons.injEq, true_and, List.append_eq_nil_iff, List.cons_ne_nil, and_false, Bool.true_eq_false,
      false_iff, not_and, not_not]
    exact fun _ => ⟨name, h1, rfl⟩
  · subst h2
    simp only [nn, false_or, List.cons.injEq, true_and, List.append_eq_nil_iff, List.cons_ne_nil, and_false]
    constructor
    · intro h
      refine ⟨h, ?_⟩
      rintro ⟨name', h3, h4⟩
      have e1 : (name ++ equalsSign :: value).dropWhile (· ≠ equalsSign) = equalsSign :: value := by
        rw [List.dropWhile_append_of_pos (fun x hx => by
          simp only [ne_eq, decide_not, Bool.not_eq_eq_eq_not, Bool.not_true, decide_eq_false_iff_not]
          rintro rfl
          exact h1 hx)]
        simp
      have e2 : (name' ++ [equalsSign]).dropWhile (· ≠ equalsSign) = [equalsSign] := by
        rw [List.dropWhile_append_of_pos (fun x hx => by
          simp only [ne_eq, decide_not, Bool.not_eq_eq_eq_not, Bool.not_true, decide_eq_false_iff_not]
          rintro rfl
          exact h3 hx)]
        simp
      rw [h4, e2] at e1
      exact h1' (by simpa using e1.symm)
    · exact fun h => h.1
  · have hno := not_notOption h2 h2'
    have h5 : ∀ t : Text, w ≠ dash :: dash :: t := by
      rintro t rfl
      cases n with
      | zero =>
        simp only [helpLetters, List.replicate_zero, List.cons_append, List.nil_append, List.cons.injEq, true_and] at h1
        exact h3 rfl h1.1.symm
      | succ n =>
        rw [helpLetters, List.replicate_succ] at h1
        simp only [List.cons_append, List.cons.injEq, true_and] at h1
        exact absurd h1.1 (by decide)
    simp only [hno, h5, false_or, exists_false, not_false_eq_true, and_true, and_false]

/-! ## Parsing -/

theorem parse_option {lib : Library} {t key : Text} {rest : List Text} {n : Nat} {adj : Option Text} :
    key ≠ [] → word t = .option n key adj → parseWords lib (t :: rest) =
      match Opt.find true key with
      | none => none
      | some o =>
        if o.takesValue then
          match adj with
          | some value => (parseWords lib rest).map fun r => helps n ++ (o, value) :: r
          | none =>
            match rest with
            | [] => none
            | value :: rest => if lib.bad value then none else (parseWords lib rest).map fun r => helps n ++ (o, value) :: r
        else
          match adj with
          | some _ => none
          | none => (parseWords lib rest).map fun r => helps n ++ (o, []) :: r := by
  intro hk h
  rw [parseWords]
  split <;> rename_i h' <;> rw [h] at h'
  · cases h'
  · cases h'
  · cases h'
  · cases h'
    exact absurd rfl hk
  · cases h'
    rfl

theorem parse_plain {lib : Library} {t : Text} {rest : List Text} (h : word t = .plain) :
    parseWords lib (t :: rest) = parseWords lib rest := by
  rw [parseWords]
  split <;> rename_i h' <;> rw [h] at h' <;> first | rfl | cases h'

theorem parse_nameless {lib : Library} {t : Text} {rest : List Text} {n : Nat} {adj : Option Text} (h : word t = .option n [] adj) :
    parseWords lib (t :: rest) = parseWords lib rest := by
  rw [parseWords]
  split <;> rename_i h' <;> rw [h] at h' <;> first | rfl | cases h'
  rename_i h1
  exact (h1 rfl).elim

theorem drop_equals {name value : Text} (h : equalsSign ∉ name) :
    (name ++ equalsSign :: value).dropWhile (· ≠ equalsSign) = equalsSign :: value ∧
    (name ++ equalsSign :: value).takeWhile (· ≠ equalsSign) = name := by
  have hp : ∀ x ∈ name, (decide (x ≠ equalsSign)) = true := by
    intro x hx
    rw [decide_eq_true_eq]
    rintro rfl
    exact h hx
  constructor
  · rw [List.dropWhile_append_of_pos hp]
    simp
  · rw [List.takeWhile_append_of_pos hp]
    simp

theorem word_equal {name value : Text} (h : equalsSign ∉ name) (hv : value ≠ []) :
    word (dash :: dash :: (name ++ equalsSign :: value)) = .option 0 name (some value) := by
  rw [word_long (by simp), (drop_equals h).1, (drop_equals h).2]
  cases value with
  | nil => exact absurd rfl hv
  | cons a b => rfl

theorem word_name {name : Text} (h : equalsSign ∉ name) (hn : name ≠ []) : word (dash :: dash :: name) = .option 0 name none := by
  have : name.dropWhile (· ≠ equalsSign) = [] := by
    have : ∀ x ∈ name, (decide (x ≠ equalsSign)) = true := ?_
    · exact List.dropWhile_eq_nil_iff.2 this
    intro x hx
    rw [decide_eq_true_eq]
    rintro rfl
    exact h hx
  rw [word_long hn, this]

theorem word_letters (n : Nat) {c : UInt8} (hc : c ≠ dash) (adj : Text) : word (helpLetters n ++ c :: adj) = shortWord n c adj := by
  cases n with
  | zero => exact word_short hc
  | succ n =>
    rw [helpLetters, List.replicate_succ, List.cons_append, List.cons_append, word_short (by decide), shortWord_letters]
    congr 1
    omega

theorem Writes.parse {lib : Library} {l : List (Opt × Text)} {ws : List Text} (h : Writes lib l ws) (rest : List Text) :
    parseWords lib (ws ++ rest) = (parseWords lib rest).map fun r => l ++ r := by
  cases h with
  | long ho hk hv =>
    rename_i o key value
    rw [List.cons_append, parse_option hk.1 (word_name hk.no_equals hk.1), Opt.find_named hk]
    simp only [(o.takesValue_iff).2 ho, if_true, List.cons_append, List.nil_append]
    rw [if_neg (by rw [(lib.bad_iff value).2 hv]; decide)]
    rfl
  | longEqual ho hk hv =>
    rename_i o key value
    rw [List.cons_append, parse_option hk.1 (word_equal hk.no_equals hv), Opt.find_named hk]
    simp only [(o.takesValue_iff).2 ho, if_true, List.cons_append, List.nil_append]
    rfl
  | longHelp hk =>
    rename_i key
    rw [List.cons_append, parse_option hk.1 (word_name hk.no_equals hk.1), Opt.find_named hk]
    rfl
  | short n ho hv =>
    rename_i o value
    have hw : word (helpLetters n ++ [o.short]) = .option n [dash, o.short] none := by
      rw [word_letters n o.short_ne.1]
      rfl
    rw [List.cons_append, parse_option (by simp) hw, Opt.find_named o.named_letter]
    simp only [(o.takesValue_iff).2 ho, if_true, List.cons_append, List.nil_append]
    rw [if_neg (by rw [(lib.bad_iff value).2 hv]; decide)]
    simp only [List.append_assoc, List.cons_append, List.nil_append]
  | shortJoined n ho hv =>
    rename_i o value
    have hw : word (helpLetters n ++ o.short :: value) = .option n [dash, o.short] (some value) := by
      rw [word_letters n o.short_ne.1]
      cases value with
      | nil => exact absurd rfl hv
      | cons a b =>
        rw [shortWord, Opt.find_letter.2 rfl]
        simp only [(o.takesValue_iff).2 ho, if_true]
    rw [List.cons_append, parse_option (by simp) hw, Opt.find_named o.named_letter]
    simp only [(o.takesValue_iff).2 ho, if_true, List.append_assoc, List.cons_append, List.nil_append]
  | shortHelp n =>
    have hw : word (helpLetters (n + 1)) = .option n [dash, Opt.help.short] none := by
      have := word_letters n (c := Opt.help.short) (by decide) []
      rw [helpLetters, List.replicate_succ', ← List.cons_append, ← helpLetters, this]
      rfl
    rw [List.cons_append, parse_option (by simp) hw, Opt.find_named Opt.help.named_letter]
    show (parseWords lib rest).map _ = _
    congr 1
    funext r
    rw [helps, helps, List.replicate_succ', List.append_assoc]
    rfl
  | ignored h =>
    rw [List.cons_append, parse_plain (word_notOption h), List.nil_append]
    cases parseWords lib rest <;> rfl
  | nameless hv =>
    rename_i value
    have hw : word (dash :: dash :: equalsSign :: value) = .option 0 [] (some value) := word_equal (name := []) (by simp) hv
    rw [List.cons_append, parse_nameless hw, List.nil_append]
    cases parseWords lib rest <;> rfl

theorem Line.parse {lib : Library} {l : List (Opt × Text)} {args : List Text} (h : Line lib l args) : parseWords lib args = some l := by
  induction h with
  | nil => rfl
  | stop => rfl
  | cons hw _ ih => rw [hw.parse, ih]; rfl

theorem Line.of_parse {lib : Library} (k : Nat) : ∀ {l : List (Opt × Text)} {args : List Text}, args.length ≤ k →
    parseWords lib args = some l → Line lib l args := by
  induction k with
  | zero =>
    intro l args hk h
    obtain rfl : args = [] := List.length_eq_zero_iff.1 (by omega)
    cases h
    exact .nil
  | succ k ih =>
    intro l args hk h
    rcases args with _ | ⟨t, rest⟩
    · cases h
      exact .nil
    have hr : rest.length ≤ k := by simpa using hk
    /- an option with a name -/
    have main : ∀ (n : Nat) (key : Text) (adj : Option Text), key ≠ [] → word t = .option n key adj →
        (∀ o l' v, Opt.find true key = some o → o ≠ .help → adj = some v → Line lib l' rest →
          Line lib (helps n ++ (o, v) :: l') (t :: rest)) →
        (∀ o l' v rest', Opt.find true key = some o → o ≠ .help → adj = none → lib.Accepts v → rest = v :: rest' → Line lib l' rest' →
          Line lib (helps n ++ (o, v) :: l') (t :: rest)) →
        (∀ l', Opt.find true key = some .help → adj = none → Line lib l' rest → Line lib (helps n ++ (.help, []) :: l') (t :: rest)) →
        Line lib l (t :: rest) := by
      intro n key adj hkey hword h1 h2 h3
      rw [parse_option hkey hword] at h
      cases hf : Opt.find true key with
      | none => rw [hf] at h; cases h
      | some o =>
        rw [hf] at h
        simp only at h
        by_cases ho : o = .help
        · subst ho
          rw [if_neg (by decide)] at h
          cases adj with
          | some v => cases h
          | none =>
            obtain ⟨l', hl', rfl⟩ := Option.map_eq_some_iff.1 h
            exact h3 l' hf rfl (ih hr hl')
        · rw [if_pos ((o.takesValue_iff).2 ho)] at h
          cases adj with
          | some v =>
            obtain ⟨l', hl', rfl⟩ := Option.map_eq_some_iff.1 h
            exact h1 o l' v hf ho rfl (ih hr hl')
          | none =>
            cases rest with
            | nil => cases h
            | cons v rest' =>
              simp only at h
              by_cases hb : lib.bad v = true
              · rw [if_pos hb] at h; cases h
              · rw [if_neg hb] at h
                obtain ⟨l', hl', rfl⟩ := Option.map_eq_some_iff.1 h
                refine h2 o l' v rest' hf ho rfl ((lib.bad_iff v).1 (by simpa using hb)) rfl (ih ?_ hl')
                rw [List.length_cons] at hr
                omega
    rcases word_cases t with ⟨ht, hw⟩ | ⟨ht, hw⟩ | ⟨name, h0, h1, ht, hw⟩ | ⟨name, h1, ht, hw⟩ | ⟨name, value, h1, h1', ht, hw⟩ |
      ⟨n, a, adj, h1, h2, h2', h3, h4, hw⟩
    · rw [parse_plain hw] at h
      exact .cons (.ignored ht) (ih hr h)
    · rw [parseWords, hw] at h
      cases h
      rw [ht]
      exact .stop
    · refine main _ _ _ h0 hw ?_ ?_ ?_
      · intro o l' v _ _ hadj _
        cases hadj
      · rintro o l' v rest' hf ho - hv rfl hl
        rw [ht]
        exact .cons (.long ho (Opt.named_find h0 hf) hv) hl
      · intro l' hf _ hl
        rw [ht]
        exact .cons (.longHelp (Opt.named_find h0 hf)) hl
    · rw [parseWords, hw] at h
      cases h
    · by_cases h0 : name = []
      · subst h0
        rw [parse_nameless hw] at h
        rw [ht]
        exact .cons (.nameless h1') (ih hr h)
      · refine main _ _ _ h0 hw ?_ ?_ ?_
        · intro o l' v hf ho hadj hl
          cases hadj
          rw [ht]
          exact .cons (.longEqual ho (Opt.named_find h0 hf) h1') hl
        · intro o l' v rest' _ _ hadj
          cases hadj
        · intro l' _ hadj
          cases hadj
    · refine main _ _ _ (by simp) hw ?_ ?_ ?_
      · intro o l' v hf ho hadj hl
        have hadj' : adj ≠ [] ∧ adj = v := by
          split at hadj
          · cases hadj
          · rename_i hne
            exact ⟨hne, by simpa using hadj⟩
        obtain ⟨hne, rfl⟩ := hadj'
        have ha := Opt.letter_named (Opt.named_find (by simp) hf)
        subst ha
        have := Line.cons (lib := lib) (.shortJoined n ho hne) hl
        rw [List.append_assoc] at this
        rw [h1]
        exact this
      · rintro o l' v rest' hf ho hadj hv rfl hl
        have hadj' : adj = [] := by
          by_contra hne
          rw [if_neg hne] at hadj
          cases hadj
        subst hadj'
        have ha := Opt.letter_named (Opt.named_find (by simp) hf)
        subst ha
        have := Line.cons (lib := lib) (.short n ho hv) hl
        rw [List.append_assoc] at this
        rw [h1]
        exact this
      · intro l' hf hadj hl
        have hadj' : adj = [] := by
          by_contra hne
          rw [if_neg hne] at hadj
          cases hadj
        subst hadj'
        have ha := Opt.letter_named (Opt.named_find (by simp) hf)
        subst ha
        have := Line.cons (lib := lib) (.shortHelp n) hl
        rw [helps, List.replicate_succ', List.append_assoc] at this
        rw [h1]
        rw [helpLetters, List.replicate_succ', ← List.cons_append] at this
        exact this

/-- Parsing is right: the options found are those that the command line gives. -/
theorem parse_iff {lib : Library} {l : List (Opt × Text)} {args : List Text} : parseWords lib args = some l ↔ Line lib l args :=
  ⟨Line.of_parse _ (Nat.le_refl _), Line.parse⟩

theorem Line.unique {lib : Library} {l l' : List (Opt × Text)} {args : List Text} (h : Line lib l args) (h' : Line lib l' args) : l = l' := by
  have := h.parse.symm.trans h'.parse
  simpa using this

/-! ## Storing -/

theorem Options.given_iff (options : Options) (o : Opt) : options.given o = (options.value o).isSome := by
  cases o <;> simp only [Options.given, Options.value]
  cases options.help <;> rfl

theorem Options.value_set (options : Options) (o o' : Opt) (v : Text) (hv : o = .help → v = []) :
    (options.set o v).value o' = if o' = o then some v else options.value o' := by
  cases o <;> cases o' <;> first | rfl | simp [Options.set, Options.value, hv]

theorem Writes.help_value {lib : Library} {l : List (Opt × Text)} {ws : List Text} (h : Writes lib l ws) :
    ∀ x ∈ l, x.1 = .help → x.2 = [] := by
  have hh : ∀ n, ∀ x ∈ helps n, x.1 = .help → x.2 = [] := by
    intro n x hx _
    rw [List.eq_of_mem_replicate hx]
  intro x hx ho
  cases h with
  | longHelp => exact hh _ x hx ho
  | shortHelp => exact hh _ x hx ho
  | short n h1 =>
    rcases List.mem_append.1 hx with hx | hx
    · exact hh _ x hx ho
    · rw [List.mem_singleton.1 hx] at ho; exact absurd ho h1
  | shortJoined n h1 =>
    rcases List.mem_append.1 hx with hx | hx
    · exact hh _ x hx ho
    · rw [List.mem_singleton.1 hx] at ho; exact absurd ho h1
  | long h1 => rw [List.mem_singleton.1 hx] at ho; exact absurd ho h1
  | longEqual h1 => rw [List.mem_singleton.1 hx] at ho; exact absurd ho h1
  | ignored => cases hx
  | nameless => cases hx

theorem Line.help_value {lib : Library} {l : List (Opt × Text)} {args : List Text} (h : Line lib l args) :
    ∀ x ∈ l, x.1 = .help → x.2 = [] := by
  induction h with
  | nil => simp
  | stop => simp
  | cons hw _ ih =>
    intro x hx
    rcases List.mem_append.1 hx with hx | hx
    · exact hw.help_value x hx
    · exact ih x hx

theorem store_spec (l : List (Opt × Text)) (options : Options) (hh : ∀ x ∈ l, x.1 = .help → x.2 = [])  :
    (((l.map (·.1)).Nodup ∧ ∀ o ∈ l.map (·.1), options.value o = none) ∧
      ∃ r, store l options = .parsed r ∧ ∀ o, r.value o = (l.lookup o).or (options.value o)) ∨
    (¬ ((l.map (·.1)).Nodup ∧ ∀ o ∈ l.map (·.1), options.value o = none) ∧ store l options = .repeated) := by
  induction l generalizing options with
  | nil => exact .inl ⟨by simp, options, rfl, fun o => by simp⟩
  | cons x l ih =>
    obtain ⟨o, v⟩ := x
    rw [store, Options.given_iff]
    cases ho : options.value o with
    | some w =>
      refine .inr ⟨?_, rfl⟩
      rintro ⟨-, h⟩
      have := h o (by simp)
      rw [ho] at this
      cases this
    | none =>
      have hv : o = .help → v = [] := hh (o, v) (by simp)
      have key : ((((o, v) :: l).map (·.1)).Nodup ∧ ∀ o' ∈ ((o, v) :: l).map (·.1), options.value o' = none) ↔
          ((l.map (·.1)).Nodup ∧ ∀ o' ∈ l.map (·.1), (options.set o v).value o' = none) := by
        rw [List.map_cons, List.nodup_cons]
        constructor
        · rintro ⟨⟨h1, h2⟩, h3⟩
          refine ⟨h2, fun o' ho' => ?_⟩
          rw [Options.value_set _ _ _ _ hv, if_neg]
          · exact h3 o' (by simp [ho'])
          · rintro rfl
            exact h1 ho'
        · rintro ⟨h1, h2⟩
          refine ⟨⟨fun hm => ?_, h1⟩, fun o' ho' => ?_⟩
          · have := h2 o hm
            rw [Options.value_set _ _ _ _ hv, if_pos rfl] at this
            cases this
          · rcases List.mem_cons.1 ho' with rfl | ho'
            · exact ho
            · have := h2 o' ho'
              rw [Options.value_set _ _ _ _ hv] at this
              split at this
              · cases this
              · exact this
      rw [key]
      rcases ih (options.set o v) (fun x hx => hh x (by simp [hx])) with ⟨h1, r, h2, h3⟩ | ⟨h1, h2⟩
      · refine .inl ⟨h1, r, h2, fun o' => ?_⟩
        rw [h3, Options.value_set _ _ _ _ hv, List.lookup_cons]
        by_cases he : o' = o
        · subst he
          rw [beq_self_eq_true]
          have : l.lookup o' = none := by
            rw [List.lookup_eq_none_iff]
            intro p hp
            by_contra hne
            obtain rfl : o' = p.1 := by simpa using hne
            have := h1.2 p.1 (List.mem_map.2 ⟨p, hp, rfl⟩)
            rw [Options.value_set _ _ _ _ hv, if_pos rfl] at this
            cases this
          rw [this]
          simp
        · rw [if_neg he, beq_eq_false_iff_ne.2 he]
      · exact .inr ⟨h1, h2⟩

theorem Options.ext_value {a b : Options} (h : ∀ o, a.value o = b.value o) : a = b := by
  have h0 := h .help
  have h1 := h .parallel
  have h2 := h .left
  have h3 := h .right
  have h4 := h .output
  have h5 := h .levels
  have h6 := h .smoothness
  have h7 := h .cleanness
  obtain ⟨a0, a1, a2, a3, a4, a5, a6, a7⟩ := a
  obtain ⟨b0, b1, b2, b3, b4, b5, b6, b7⟩ := b
  simp only [Options.value] at h0 h1 h2 h3 h4 h5 h6 h7
  subst h1 h2 h3 h4 h5 h6 h7
  cases a0 <;> cases b0 <;> simp_all

/-! ## C84: options are understood as they are given -/

theorem commandLine_line {lib : Library} {l : List (Opt × Text)} {args : List Text} (h : Line lib l args) :
    ((l.map (·.1)).Nodup ∧ ∃ options, commandLine lib args = .parsed options ∧ ∀ o, options.value o = l.lookup o) ∨
    (¬ (l.map (·.1)).Nodup ∧ commandLine lib args = .repeated) := by
  unfold commandLine
  rw [h.parse]
  have hv : ∀ o, ({} : Options).value o = none := by intro o; cases o <;> rfl
  rcases store_spec l {} h.help_value with ⟨⟨h1, -⟩, r, h2, h3⟩ | ⟨h1, h2⟩
  · refine .inl ⟨h1, r, h2, fun o => ?_⟩
    rw [h3, hv, Option.or_none]
  · exact .inr ⟨fun hn => h1 ⟨hn, fun o _ => hv o⟩, h2⟩

theorem commandLine_wrong {lib : Library} {args : List Text} (h : ¬ ∃ l, Line lib l args) : commandLine lib args = .wrong := by
  unfold commandLine
  cases hp : parseWords lib args with
  | none => rfl
  | some l => exact absurd ⟨l, parse_iff.1 hp⟩ h

/-- **C84**. The names in the grammar are the documented ones. -/
theorem C84_names (o : Opt) : o.long = bytes o.documented.1 ∧ o.short.toNat = o.documented.2.toNat := by
  cases o <;> decide +kernel

/-- **C84**. What is understood is exactly what is written. The options have the values given on the command line, in whatever form and
order, if each of them is given once; a command line is refused as one with repeated options exactly if it repeats one, and otherwise
refused exactly if it is not a command line. -/
theorem C84_command_line (lib : Library) (args : List Text) :
    (∀ options, commandLine lib args = .parsed options ↔
      ∃ l, Line lib l args ∧ (l.map (·.1)).Nodup ∧ ∀ o, options.value o = l.lookup o) ∧
    (commandLine lib args = .repeated ↔ ∃ l, Line lib l args ∧ ¬ (l.map (·.1)).Nodup) ∧
    (commandLine lib args = .wrong ↔ ¬ ∃ l, Line lib l args) := by
  by_cases h : ∃ l, Line lib l args
  · obtain ⟨l, hl⟩ := h
    rcases commandLine_line hl with ⟨h1, options, h2, h3⟩ | ⟨h1, h2⟩
    · rw [h2]
      refine ⟨fun options' => ⟨?_, ?_⟩, ⟨nofun, ?_⟩, ⟨nofun, ?_⟩⟩
      · intro he
        cases he
        exact ⟨l, hl, h1, h3⟩
      · rintro ⟨l', hl', -, h4⟩
        obtain rfl := hl.unique hl'
        rw [Options.ext_value fun o => (h3 o).trans (h4 o).symm]
      · rintro ⟨l', hl', h4⟩
        obtain rfl := hl.unique hl'
        exact absurd h1 h4
      · exact fun h => absurd ⟨l, hl⟩ h
    · rw [h2]
      refine ⟨fun options' => ⟨nofun, ?_⟩, ⟨fun _ => ⟨l, hl, h1⟩, fun _ => rfl⟩, ⟨nofun, ?_⟩⟩
      · rintro ⟨l', hl', h4, -⟩
        obtain rfl := hl.unique hl'
        exact absurd h4 h1
      · exact fun h => absurd ⟨l, hl⟩ h
  · rw [commandLine_wrong h]
    refine ⟨fun options' => ⟨nofun, ?_⟩, ⟨nofun, ?_⟩, ⟨fun _ => h, fun _ => rfl⟩⟩
    · rintro ⟨l, hl, -⟩
      exact absurd ⟨l, hl⟩ h
    · rintro ⟨l, hl, -⟩
      exact absurd ⟨l, hl⟩ h

theorem lookup_perm {l l' : List (Opt × Text)} (h : l.Perm l') (hn : (l.map (·.1)).Nodup) (o : Opt) : l.lookup o = l'.lookup o := by
  induction h with
  | nil => rfl
  | cons x _ ih =>
    obtain ⟨a, b⟩ := x
    rw [List.map_cons, List.nodup_cons] at hn
    rw [List.lookup_cons, List.lookup_cons, ih hn.2]
  | swap x y l =>
    obtain ⟨a, b⟩ := x
    obtain ⟨a', b'⟩ := y
    simp only [List.map_cons, List.nodup_cons, List.mem_cons, not_or] at hn
    simp only [List.lookup_cons]
    by_cases h1 : o = a
    · subst h1
      rw [beq_self_eq_true, beq_eq_false_iff_ne.2 (Ne.symm hn.1.1)]
    · rw [beq_eq_false_iff_ne.2 h1]
  | trans h1 _ ih1 ih2 => rw [ih1 hn, ih2 ((h1.map _).nodup_iff.1 hn)]

/-- The order of options and the form of each of them do not matter: the program does the same. -/
theorem C84_order_irrelevant {F : Type} [FloatOps F] (world : World F) {lib lib' : Library} {l l' : List (Opt × Text)} {args args' : List Text}
    (h : Line lib l args) (h' : Line lib' l' args') (hp : l.Perm l') :
    runProgram world lib args = runProgram world lib' args' := by
  have : commandLine lib args = commandLine lib' args' := by
    have hn : (l.map (·.1)).Nodup ↔ (l'.map (·.1)).Nodup := (hp.map _).nodup_iff
    rcases commandLine_line h with ⟨h1, o, h2, h3⟩ | ⟨h1, h2⟩ <;> rcases commandLine_line h' with ⟨h1', o', h2', h3'⟩ | ⟨h1', h2'⟩
    · rw [h2, h2', Options.ext_value fun x => (h3 x).trans ((lookup_perm hp h1 x).trans (h3' x).symm)]
    · exact absurd (hn.1 h1) h1'
    · exact absurd (hn.2 h1') h1
    · rw [h2, h2']
  unfold runProgram
  rw [this]

/-- A refused command line ends the program with status 1 and a message; no files are read or written. -/
theorem C84_refused {F : Type} [FloatOps F] (world : World F) (lib : Library) (args : List Text) :
    (∀ l, Line lib l args → ¬ (l.map (·.1)).Nodup → runProgram world lib args = .ok { exit := 1, err := [.onlyOnce] }) ∧
    ((¬ ∃ l, Line lib l args) → runProgram world lib args = .ok { exit := 1, err := [.unexpected "command line"] }) := by
  unfold runProgram
  constructor
  · intro l hl hn
    rw [((C84_command_line lib args).2.1).2 ⟨l, hl, hn⟩]
    rfl
  · intro h
    rw [((C84_command_line lib args).2.2).2 h]
    rfl

/-- A library that refuses nothing. -/
def anyLibrary : Library := ⟨fun _ => false⟩

/-- A run that writes a map, with options in all forms. -/
example : runProgram smallWorld anyLibrary
      [bytes "-l", bytes "l", bytes "--right-image=r", bytes "--output", bytes "o", bytes "-d2", bytes "-hpOMP"] =
    .ok { exit := 0, out := [.openMP], written := some (bytes "o", bytes "P2\n3 2\n2\n1 1 0\n1 1 0\n") } := by decide +kernel

/-- The command line of this example, by the grammar. -/
example : Line anyLibrary [(.left, bytes "l"), (.right, bytes "r"), (.output, bytes "o"), (.levels, bytes "2"), (.help, []), (.parallel, bytes "OMP")]
    [bytes "-l", bytes "l", bytes "--right-image=r", bytes "--output", bytes "o", bytes "-d2", bytes "-hpOMP"] :=
  parse_iff.1 (by decide +kernel)

/-- A repeated option, also in another form. -/
example : runProgram smallWorld anyLibrary [bytes "-l", bytes "l", bytes "--left=l"] = .ok { exit := 1, err := [.onlyOnce] } := by
  decide +kernel

/-! ## C85: arguments without a meaning -/

theorem Line.append {lib : Library} {l : List (Opt × Text)} {args : List Text} (h : Line lib l args) (hs : [dash, dash] ∉ args)
    (rest : List Text) : parseWords lib (args ++ rest) = (parseWords lib rest).map fun r => l ++ r := by
  induction h with
  | nil => cases h : parseWords lib rest <;> simp [h]
  | stop => simp at hs
  | cons hw _ ih =>
    rw [List.append_assoc, hw.parse, ih fun h => hs (by simp [h])]
    cases parseWords lib rest <;> simp

/-- A word that looks like an option, but names none of them; or `--name=`; or a value for an option that has no values. -/
def Unknown (w : Text) : Prop :=
  (∃ name, name ≠ [] ∧ (∀ o : Opt, ¬ o.Named name) ∧ equalsSign ∉ name ∧
    (w = dash :: dash :: name ∨ ∃ value, w = dash :: dash :: (name ++ equalsSign :: value))) ∨
  (∃ name, equalsSign ∉ name ∧ w = dash :: dash :: (name ++ [equalsSign])) ∨
  (∃ name value, Opt.help.Named name ∧ w = dash :: dash :: (name ++ equalsSign :: value)) ∨
  (∃ n c rest, (∀ o : Opt, o.short ≠ c) ∧ c ≠ dash ∧ w = helpLetters n ++ c :: rest)

theorem find_none {key : Text} (hk : key ≠ []) (h : ∀ o : Opt, ¬ o.Named key) : Opt.find true key = none := by
  cases hf : Opt.find true key with
  | none => rfl
  | some o => exact absurd (Opt.named_find hk hf) (h o)

theorem Unknown.parse {w : Text} (h : Unknown w) (lib : Library) (rest : List Text) : parseWords lib (w :: rest) = none := by
  have empty : ∀ name, equalsSign ∉ name → parseWords lib ((dash :: dash :: (name ++ [equalsSign])) :: rest) = none := by
    intro name hn
    have hw : word (dash :: dash :: (name ++ [equalsSign])) = .emptyValue := by
      rw [word_long (by simp), (drop_equals hn).1]
    rw [parseWords]
    split <;> rename_i h' <;> rw [hw] at h' <;> first | rfl | cases h'
  rcases h with ⟨name, h0, h1, h2, rfl | ⟨value, rfl⟩⟩ | ⟨name, h2, rfl⟩ | ⟨name, value, h1, rfl⟩ | ⟨n, c, adj, h1, h2, rfl⟩
  · rw [parse_option h0 (word_name h2 h0), find_none h0 h1]
  · by_cases hv : value = []
    · subst hv
      exact empty name h2
    · rw [parse_option h0 (word_equal h2 hv), find_none h0 h1]
  · exact empty name h2
  · by_cases hv : value = []
    · subst hv
      exact empty name h1.no_equals
    · rw [parse_option h1.1 (word_equal h1.no_equals hv), Opt.find_named h1]
      rfl
  · have hf : ∀ o : Opt, ¬ o.Named [dash, c] := fun o ho => h1 o (Opt.letter_named ho).symm
    have hw : ∃ a, word (helpLetters n ++ c :: adj) = .option n [dash, c] a := by
      rw [word_letters n h2]
      cases adj with
      | nil => exact ⟨_, rfl⟩
      | cons b adj =>
        rw [shortWord]
        cases hff : Opt.find false [dash, c] with
        | none => exact ⟨_, rfl⟩
        | some o => exact absurd (Opt.find_letter.1 hff).symm (h1 o)
    obtain ⟨a, hw⟩ := hw
    rw [parse_option (by simp) hw, find_none (by simp) hf]

/-- **C85**, what holds. Full statement: every word of the command line that is neither an option nor a value of an option is refused. It is
false (`C85_extra_words_refuted`). What holds: before `--`, words that look like options but are not are refused, whatever follows, and so
is an option without a value at the end. -/
theorem C85_unknown_option_partial {F : Type} [FloatOps F] (world : World F) {lib : Library} {l : List (Opt × Text)} {args : List Text}
    (h : Line lib l args) (hs : [dash, dash] ∉ args) :
    (∀ w rest, Unknown w → runProgram world lib (args ++ w :: rest) = .ok { exit := 1, err := [.unexpected "command line"] }) ∧
    (∀ (o : Opt) w, o ≠ .help → (w = [dash, o.short] ∨ ∃ name, o.Named name ∧ w = dash :: dash :: name) →
      runProgram world lib (args ++ [w]) = .ok { exit := 1, err := [.unexpected "command line"] }) := by
  unfold runProgram commandLine
  constructor
  · intro w rest hw
    rw [h.append hs, hw.parse]
    rfl
  · intro o w ho hw
    have : parseWords lib [w] = none := by
      rcases hw with rfl | ⟨name, hn, rfl⟩
      · have hw : word [dash, o.short] = .option 0 [dash, o.short] none := by
          rw [word_short o.short_ne.1]
          rfl
        rw [parse_option (by simp) hw, Opt.find_named o.named_letter]
        simp only [(o.takesValue_iff).2 ho, if_true]
      · rw [parse_option hn.1 (word_name hn.no_equals hn.1), Opt.find_named hn]
        simp only [(o.takesValue_iff).2 ho, if_true]
    rw [h.append hs, this]
    rfl

/-- Words that are refused. -/
example : Unknown (bytes "--levels") ∧ Unknown (bytes "-x") ∧ Unknown (bytes "--help=yes") ∧ Unknown (bytes "-hxl") := by
  refine ⟨.inl ⟨bytes "levels", by decide +kernel, ?_, by decide +kernel, .inl (by decide +kernel)⟩,
    .inr (.inr (.inr ⟨0, 120, [], by intro o; cases o <;> decide, by decide, by decide +kernel⟩)),
    .inr (.inr (.inl ⟨bytes "help", bytes "yes", ⟨by decide +kernel, .inl (by decide +kernel)⟩, by decide +kernel⟩)),
    .inr (.inr (.inr ⟨1, 120, [108], by intro o; cases o <;> decide, by decide, by decide +kernel⟩))⟩
  rintro o ⟨-, h⟩
  revert h
  cases o <;> decide +kernel

/-- **C85** is false: words that are not options are ignored wherever they stand, and so are options after `--`. -/
theorem C85_extra_words_refuted {F : Type} [FloatOps F] (world : World F) {lib : Library} {l : List (Opt × Text)} {args rest : List Text}
    (h : Line lib l args) (hs : [dash, dash] ∉ args) :
    (∀ w, NotOption w → runProgram world lib (args ++ w :: rest) = runProgram world lib (args ++ rest)) ∧
    runProgram world lib (args ++ [dash, dash] :: rest) = runProgram world lib args := by
  unfold runProgram commandLine
  refine ⟨fun w hw => ?_, ?_⟩
  · rw [h.append hs, h.append hs, parse_plain (word_notOption hw)]
  · have e : parseWords lib ([dash, dash] :: rest) = some [] := rfl
    rw [h.append hs, e, h.parse, Option.map_some, List.append_nil]

/-- For example, images given as words and an output file after `--`. -/
example : NotOption (bytes "left.pgm") ∧
    runProgram smallWorld anyLibrary [bytes "left.pgm", bytes "right.pgm", bytes "--", bytes "-o", bytes "o"] =
      .ok { exit := 0, err := [.specifyImages] } := ⟨.inl (by decide +kernel), by decide +kernel⟩

/-! ## C54 again -/

/-- Without arguments, with `--help` or with `-h` the program asks for images. -/
theorem C54_help_option_refuted {F : Type} [FloatOps F] (world : World F) (lib : Library) :
    ∀ args ∈ [[], [bytes "--help"], [bytes "-h"]], runProgram world lib args = .ok { exit := 0, err := [.specifyImages] } := by
  have h1 : commandLine lib [] = .parsed {} := rfl
  have h2 : commandLine lib [bytes "--help"] = .parsed { help := true } := by
    have : parseWords lib [bytes "--help"] = some [(.help, [])] := by
      have hk : Opt.help.Named (bytes "help") := ⟨by decide +kernel, .inl (by decide +kernel)⟩
      have e : bytes "--help" = dash :: dash :: bytes "help" := by decide +kernel
      rw [e]
      exact (Line.cons (.longHelp hk) .nil).parse
    unfold commandLine
    rw [this]
    rfl
  have h3 : commandLine lib [bytes "-h"] = .parsed { help := true } := by
    have : parseWords lib [bytes "-h"] = some [(.help, [])] := by
      have e : bytes "-h" = helpLetters 1 := by decide +kernel
      rw [e]
      exact (Line.cons (.shortHelp 0) .nil).parse
    unfold commandLine
    rw [this]
    rfl
  intro args hargs
  simp only [List.mem_cons, List.not_mem_nil, or_false] at hargs
  unfold runProgram
  rcases hargs with rfl | rfl | rfl
  · rw [h1]; rfl
  · rw [h2]; rfl
  · rw [h3]; rfl

end SP
