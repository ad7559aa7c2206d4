import Verif.Lemmas.PgmRead
import Verif.Lemmas.Disparity
/-!
# Writing of PGM images
-/
namespace SP

/-! ## Decimal numbers -/

/-- One more digit. -/
def digitStep (v : Nat) (d : UInt8) : Nat := 10 * v + (d.toNat - 48)

theorem digitsValue_eq (ds : Text) : digitsValue ds = ds.foldl digitStep 0 := rfl

theorem digit_toNat (n : Nat) : (UInt8.ofNat (48 + n % 10)).toNat = 48 + n % 10 := by
  have : n % 10 < 10 := Nat.mod_lt _ (by omega)
  rw [UInt8.toNat_ofNat']
  omega

theorem digit_isDigit (n : Nat) : isDigit (UInt8.ofNat (48 + n % 10)) = true := by
  have : n % 10 < 10 := Nat.mod_lt _ (by omega)
  unfold isDigit
  simp only [Bool.and_eq_true, decide_eq_true_eq, UInt8.le_iff_toNat_le, digit_toNat]
  have e1 : (48 : UInt8).toNat = 48 := rfl
  have e2 : (57 : UInt8).toNat = 57 := rfl
  omega

theorem decimalAux_value {fuel n : Nat} {acc : Text} (h : n < 10 ^ fuel) (hf : 0 < fuel) :
    (decimalAux fuel n acc).foldl digitStep 0 = acc.foldl digitStep n := by
  induction fuel generalizing n acc with
  | zero => omega
  | succ fuel ih =>
    unfold decimalAux
    dsimp only
    by_cases h0 : n / 10 = 0
    · rw [if_pos h0, List.foldl_cons]
      congr 1
      unfold digitStep
      rw [digit_toNat]
      omega
    · rw [if_neg h0]
      have hn : n / 10 < 10 ^ fuel := by
        rw [Nat.pow_succ] at h
        exact Nat.div_lt_of_lt_mul (by omega)
      have hfp : 0 < fuel := by
        rcases Nat.eq_zero_or_pos fuel with rfl | h'
        · simp at hn; omega
        · exact h'
      rw [ih hn hfp, List.foldl_cons]
      congr 1
      unfold digitStep
      rw [digit_toNat]
      omega

theorem decimalAux_digits {fuel n : Nat} {acc : Text} (h : ∀ c ∈ acc, isDigit c = true) :
    ∀ c ∈ decimalAux fuel n acc, isDigit c = true := by
  induction fuel generalizing n acc with
  | zero => exact h
  | succ fuel ih =>
    unfold decimalAux
    dsimp only
    have h' : ∀ c ∈ UInt8.ofNat (48 + n % 10) :: acc, isDigit c = true := by
      intro c hc
      rcases List.mem_cons.1 hc with rfl | hc
      · exact digit_isDigit n
      · exact h c hc
    split
    · exact h'
    · exact ih h'

theorem decimalAux_length_ge {fuel n : Nat} {acc : Text} : acc.length ≤ (decimalAux fuel n acc).length := by
  induction fuel generalizing n acc with
  | zero => exact Nat.le_refl _
  | succ fuel ih =>
    unfold decimalAux
    dsimp only
    split
    · simp
    · refine Nat.le_trans ?_ ih
      simp

theorem decimalAux_length {fuel n k : Nat} {acc : Text} (h : n < 10 ^ k) (hk : 0 < k) :
    (decimalAux fuel n acc).length ≤ k + acc.length := by
  induction fuel generalizing n acc k with
  | zero => simp [decimalAux]
  | succ fuel ih =>
    unfold decimalAux
    dsimp only
    by_cases h0 : n / 10 = 0
    · rw [if_pos h0]
      simp; omega
    · rw [if_neg h0]
      obtain ⟨k, rfl⟩ : ∃ j, k = j + 1 := ⟨k - 1, by omega⟩
      have hn : n / 10 < 10 ^ k := by
        rw [Nat.pow_succ] at h
        exact Nat.div_lt_of_lt_mul (by omega)
      have hkp : 0 < k := by
        rcases Nat.eq_zero_or_pos k with rfl | h'
        · simp at hn; omega
        · exact h'
      have := ih (acc := UInt8.ofNat (48 + n % 10) :: acc) hn hkp
      simp only [List.length_cons] at this
      omega

theorem decimal_digits (v : UInt64) : ∀ c ∈ decimal v, isDigit c = true := decimalAux_digits (by simp)

theorem decimal_ne_nil (v : UInt64) : decimal v ≠ [] := by
  unfold decimal decimalAux
  dsimp only
  intro h
  split at h
  · cases h
  · have := decimalAux_length_ge (fuel := 19) (n := v.toNat / 10) (acc := [UInt8.ofNat (48 + v.toNat % 10)])
    rw [h] at this
    simp at this

theorem digit_not_space {c : UInt8} (h : isDigit c = true) : isSpace c = false := by
  cases hs : isSpace c
  · rfl
  · exfalso
    unfold isDigit at h
    unfold isSpace at hs
    simp only [Bool.or_eq_true, beq_iff_eq, Bool.and_eq_true, decide_eq_true_eq] at h hs
    simp only [UInt8.le_iff_toNat_le] at h hs
    have e1 : (48 : UInt8).toNat = 48 := rfl
    have e3 : (13 : UInt8).toNat = 13 := rfl
    rcases hs with rfl | hs
    · revert h; decide
    · omega

theorem digit_ne_hash {c : UInt8} (h : isDigit c = true) : c ≠ hash := by
  rintro rfl
  revert h
  decide

theorem decimal_instruction (v : UInt64) : IsInstruction (decimal v) := by
  refine ⟨decimal_ne_nil v, fun c hc => digit_not_space (decimal_digits v c hc), ?_⟩
  intro h
  have : hash ∈ decimal v := List.mem_of_mem_head? h
  exact digit_ne_hash (decimal_digits v _ this) rfl

theorem takeWhile_all {p : UInt8 → Bool} {s : Text} (h : ∀ c ∈ s, p c = true) : s.takeWhile p = s := by
  induction s with
  | nil => rfl
  | cons c s ih =>
    rw [List.takeWhile_cons_of_pos (h c (by simp)), ih (fun c hc => h c (by simp [hc]))]

/-- What is printed is read back. -/
theorem stoul_decimal (v : UInt64) : stoul (decimal v) = .ok v := by
  have hd := decimal_digits v
  have hns := dropWhile_instruction (decimal_instruction v).2.1
  have hv : digitsValue (decimal v) = v.toNat := by
    have := toNat_lt' v
    rw [digitsValue_eq]
    unfold decimal
    rw [decimalAux_value (by omega) (by omega)]
    rfl
  have hhead : ((decimal v).headD 0 == 45) = false ∧ ((decimal v).headD 0 == 43) = false := by
    cases h : decimal v with
    | nil => exact absurd h (decimal_ne_nil v)
    | cons c r =>
      have := hd c (by rw [h]; simp)
      constructor
      · simp only [List.headD_cons]
        rw [beq_eq_false_iff_ne]
        rintro rfl
        revert this; decide
      · simp only [List.headD_cons]
        rw [beq_eq_false_iff_ne]
        rintro rfl
        revert this; decide
  have e : stoulDigits (decimal v) = decimal v := by
    unfold stoulDigits
    rw [hns, hhead.1, hhead.2]
    simp only [Bool.or_self, Bool.false_eq_true, if_false]
    exact takeWhile_all hd
  rw [stoul_def, e, hns, hhead.1, hv, if_neg, if_neg]
  · simp
  · have := toNat_lt' v
    omega
  · have := decimal_ne_nil v
    simpa using this

theorem decimal_length {v : UInt64} {k : Nat} (h : v.toNat < 10 ^ k) (hk : 0 < k) : (decimal v).length ≤ k := by
  have := decimalAux_length (fuel := 20) (acc := []) h hk
  simpa [decimal] using this

/-! ## Instructions of concatenated texts -/

/-- `out` consists of complete instructions `ts`. -/
def Closed (out : Text) (ts : List Text) : Prop := ∀ r, instructions (out ++ r) = ts ++ instructions r

theorem Closed.nil : Closed [] [] := fun _ => rfl

theorem Closed.append {a b : Text} {ts us : List Text} (ha : Closed a ts) (hb : Closed b us) : Closed (a ++ b) (ts ++ us) := by
  intro r
  rw [List.append_assoc, ha, hb, List.append_assoc]

theorem instructions_cons {t : Text} (ht : IsInstruction t) {c : UInt8} (hc : isSpace c = true) (r : Text) :
    instructions (t ++ c :: r) = t :: instructions r := by
  obtain ⟨h1, h2, h3⟩ := ht
  cases t with
  | nil => exact absurd rfl h1
  | cons a t =>
    have ha := h2 a (by simp)
    have hh : a ≠ hash := by simpa using h3
    have hall : ∀ b ∈ t, isSpace b = false := fun b hb => h2 b (by simp [hb])
    have e : instructions (a :: t ++ c :: r) = lex (.instruction [a]) (t ++ c :: r) := by
      simp [instructions, lex, ha, hh]
    rw [e]
    have : ∀ p, lex (.instruction p) (t ++ c :: r) = (p ++ t) :: instructions r := by
      clear e h1 h2 h3
      induction t with
      | nil => intro p; simp [lex, hc, instructions]
      | cons b t ih =>
        intro p
        have hb := hall b (by simp)
        simp only [List.cons_append, lex, hb, Bool.false_eq_true, if_false]
        rw [ih (fun d hd => hall d (by simp [hd]))]
        simp
    rw [this]
    rfl

theorem Closed.instruction {t : Text} (ht : IsInstruction t) {c : UInt8} (hc : isSpace c = true) :
    Closed (t ++ [c]) [t] := by
  intro r
  rw [List.append_assoc, List.singleton_append, instructions_cons ht hc]
  rfl

theorem Closed.instructions {out : Text} {ts : List Text} (h : Closed out ts) : instructions out = ts := by
  have := h []
  simpa using this

/-! ## Lines -/

/-- Length of the last line and whether all lines are short so far. -/
def lineStep (s : Nat × Bool) (c : UInt8) : Nat × Bool :=
  if c = newline then (0, s.2) else (s.1 + 1, s.2 && decide (s.1 + 1 ≤ 70))

/-- All lines of `out` are short, and the last one is not longer than `n`. -/
def Short (out : Text) (n : Nat) : Prop := (out.foldl lineStep (0, true)).2 = true ∧ (out.foldl lineStep (0, true)).1 ≤ n

theorem lineStep_word {t : Text} (ht : newline ∉ t) (n : Nat) (h : n + t.length ≤ 70) :
    t.foldl lineStep (n, true) = (n + t.length, true) := by
  induction t generalizing n with
  | nil => rfl
  | cons c t ih =>
    simp only [List.mem_cons, not_or] at ht
    simp only [List.length_cons] at h
    rw [List.foldl_cons]
    have : lineStep (n, true) c = (n + 1, true) := by
      unfold lineStep
      rw [if_neg (Ne.symm ht.1)]
      simp; omega
    rw [this, ih ht.2 _ (by omega)]
    simp only [List.length_cons, Prod.mk.injEq, and_true]
    omega

theorem Short.word {out t : Text} {n : Nat} (h : Short out n) (ht : newline ∉ t) {m : Nat} (hm : n + t.length ≤ m) (h70 : m ≤ 70) :
    Short (out ++ t) m := by
  obtain ⟨h1, h2⟩ := h
  unfold Short
  rw [List.foldl_append]
  generalize out.foldl lineStep (0, true) = p at *
  obtain ⟨a, b⟩ := p
  simp only at h1 h2
  subst h1
  rw [lineStep_word ht _ (by omega)]
  exact ⟨rfl, by simp only; omega⟩

theorem Short.line {out : Text} {n : Nat} (h : Short out n) : Short (out ++ [newline]) 0 := by
  obtain ⟨h1, h2⟩ := h
  unfold Short
  rw [List.foldl_append]
  generalize out.foldl lineStep (0, true) = p at *
  obtain ⟨a, b⟩ := p
  simp only at h1 h2
  subst h1
  exact ⟨rfl, Nat.le_refl _⟩

theorem lineStep_false (s : Text) (n : Nat) : (s.foldl lineStep (n, false)).2 = false := by
  induction s generalizing n with
  | nil => rfl
  | cons c s ih =>
    rw [List.foldl_cons]
    unfold lineStep
    split
    · exact ih _
    · simp only [Bool.false_and]
      exact ih _

theorem lines_ne_nil (s : Text) : lines s ≠ [] := by
  cases s with
  | nil => simp [lines]
  | cons c s =>
    unfold lines
    split
    · simp
    · split <;> simp

theorem lines_short (s : Text) (n : Nat) (hn : n ≤ 70) (h : (s.foldl lineStep (n, true)).2 = true) :
    ∃ l ls, lines s = l :: ls ∧ n + l.length ≤ 70 ∧ ∀ l' ∈ ls, l'.length ≤ 70 := by
  induction s generalizing n with
  | nil => exact ⟨[], [], rfl, hn, by simp⟩
  | cons c s ih =>
    rw [List.foldl_cons] at h
    by_cases hc : c = newline
    · subst hc
      have e : lineStep (n, true) newline = (0, true) := rfl
      rw [e] at h
      obtain ⟨l, ls, h1, h2, h3⟩ := ih 0 (by omega) h
      refine ⟨[], l :: ls, ?_, by simpa using hn, ?_⟩
      · rw [lines, if_pos rfl, h1]
      · intro l' hl'
        rcases List.mem_cons.1 hl' with rfl | hl'
        · omega
        · exact h3 l' hl'
    · have e : lineStep (n, true) c = (n + 1, decide (n + 1 ≤ 70)) := by
        unfold lineStep; rw [if_neg hc]; simp
      rw [e] at h
      by_cases h70 : n + 1 ≤ 70
      · simp only [h70, decide_true] at h
        obtain ⟨l, ls, h1, h2, h3⟩ := ih _ h70 h
        refine ⟨c :: l, ls, ?_, by simp; omega, h3⟩
        rw [lines, if_neg hc, h1]
      · simp only [h70, decide_false] at h
        rw [lineStep_false] at h
        cases h

theorem Short.lines {out : Text} {n : Nat} (h : Short out n) : ∀ l ∈ lines out, l.length ≤ 70 := by
  obtain ⟨l, ls, h1, h2, h3⟩ := lines_short out 0 (by omega) h.1
  intro l' hl'
  rw [h1] at hl'
  rcases List.mem_cons.1 hl' with rfl | hl'
  · omega
  · exact h3 l' hl'

/-! ## The whole -/

theorem decimal_no_newline (v : UInt64) : newline ∉ decimal v := by
  intro h
  have := (decimal_instruction v).2.1 _ h
  rw [newline_space] at this
  cases this

theorem space_no_newline : newline ∉ ([32] : Text) := by decide

/-- Instructions of a written image. -/
def imageInstructions (image : Image) (k : Nat) : List Text :=
  [FORMAT_CODE, decimal image.width, decimal image.height, decimal image.maxValue] ++
    (image.data.toList.take k).map decimal

theorem format_instruction : IsInstruction FORMAT_CODE := ⟨by decide, by decide, by decide⟩

theorem separator_mk (w : UInt64) {x : Nat} (hx : x < w.toNat) :
    separator w (UInt64.ofNat x) =
      if x + 1 < w.toNat then (if (x + 1) % 11 = 0 then [newline] else [32]) else [] := by
  have hw := toNat_lt' w
  have e1 : UInt64.ofNat x + 1 = UInt64.ofNat (x + 1) := by rw [UInt64.ofNat_add]; rfl
  have e2 : (UInt64.ofNat x + 1 < w) ↔ x + 1 < w.toNat := by
    rw [e1, UInt64.lt_iff_toNat_lt, toNat_ofNat_lt (by omega)]
  have e3 : (UInt64.ofNat x + 1) % MAX_NUMBERS_PER_ROW = 0 ↔ (x + 1) % 11 = 0 := by
    rw [e1, ← UInt64.toNat_inj, UInt64.toNat_mod, toNat_ofNat_lt (by omega)]
    have : MAX_NUMBERS_PER_ROW.toNat = 11 := by decide
    rw [this]
    rfl
  have e4 : UInt64.ofNat x = 0 ↔ x = 0 := by
    rw [← UInt64.toNat_inj, toNat_ofNat_lt (by omega)]; rfl
  unfold separator
  rw [if_congr (show _ ↔ ¬ (x + 1) % 11 = 0 by rw [e4, ne_eq, e3]; omega) rfl rfl]
  by_cases h1 : (x + 1) % 11 = 0
  · rw [if_neg (by simpa using h1), if_congr e2 rfl rfl, if_pos h1]
  · rw [if_pos h1, if_congr e2 rfl rfl, if_neg h1]

theorem take_succ_map {l : List UInt64} {k : Nat} (h : k < l.length) :
    (l.take (k + 1)).map decimal = (l.take k).map decimal ++ [decimal l[k]] := by
  rw [List.take_succ_eq_append_getElem h, List.map_append]
  rfl

theorem writeRow_mk {image : Image} (hsize : image.data.size = image.width.toNat * image.height.toNat)
    (hfit : image.data.size < 18446744073709551616) (hw : 0 < image.width.toNat)
    {y : Nat} (hy : y < image.height.toNat) {out : Text}
    (hout : Closed out (imageInstructions image (image.width.toNat * y))) :
    Ok (writeRow image (UInt64.ofNat y) out) fun out' =>
      Closed (out' ++ [newline]) (imageInstructions image (image.width.toNat * (y + 1))) ∧
      ((∀ v ∈ image.data, v.toNat ≤ 65536) → Short out 0 → Short out' 70) := by
  unfold writeRow
  have hres := cfor_all (cond := fun x => decide (x < image.width))
    (body := fun x out =>
      match rd image.data (pixelIndex image ⟨x, UInt64.ofNat y⟩) with
      | .error e => .error e
      | .ok v => .ok (out ++ decimal v ++ separator image.width x, false))
    (s := out) (fuel := image.width.toNat) image.width.toNat
    (fun x out' =>
      Closed (if x = image.width.toNat then out' ++ [newline] else out')
        (imageInstructions image (image.width.toNat * y + x)) ∧
      ((∀ v ∈ image.data, v.toNat ≤ 65536) → Short out 0 →
        Short out' (if x = image.width.toNat then 70 else 6 * (x % 11))))
    (Nat.le_refl _) (fun k hk => cond_lt _ _ hk) ?_ ?_
  · refine hres.mono ?_
    rintro out' ⟨h1, h2⟩
    rw [if_pos rfl] at h1 h2
    rw [Nat.mul_add, Nat.mul_one]
    exact ⟨h1, h2⟩
  · rw [if_neg (by omega), if_neg (by omega)]
    exact ⟨hout, fun _ h => h⟩
  · rintro x out' hx ⟨h1, h2⟩
    rw [if_neg (by omega)] at h1 h2
    have hk : image.width.toNat * y + x < image.data.size := by
      calc image.width.toNat * y + x < image.width.toNat * y + image.width.toNat := by omega
        _ = image.width.toNat * (y + 1) := by rw [Nat.mul_add, Nat.mul_one]
        _ ≤ image.width.toNat * image.height.toNat := Nat.mul_le_mul_left _ hy
        _ = image.data.size := hsize.symm
    have hpi : pixelIndex image ⟨UInt64.ofNat x, UInt64.ofNat y⟩ = UInt64.ofNat (image.width.toNat * y + x) := by
      have := pixelIndex_mk (img := image) (x := x) (y := y)
      unfold mkPixel at this
      rw [this]
      unfold pidx
      rw [Nat.add_comm]
    rw [hpi, rd_ofNat (by omega) hk]
    simp only
    rw [separator_mk _ hx]
    refine Ok.pure ⟨rfl, ?_, ?_⟩
    · have hins : imageInstructions image (image.width.toNat * y + (x + 1)) =
          imageInstructions image (image.width.toNat * y + x) ++ [decimal image.data[image.width.toNat * y + x]] := by
        unfold imageInstructions
        rw [← Nat.add_assoc, take_succ_map (by simpa using hk), ← List.append_assoc]
        simp
      rw [hins]
      simp only
      by_cases hl : x + 1 < image.width.toNat
      · rw [if_neg (by omega), if_pos hl, List.append_assoc]
        refine h1.append ?_
        split
        · exact Closed.instruction (decimal_instruction _) newline_space
        · exact Closed.instruction (decimal_instruction _) (by decide)
      · rw [if_pos (by omega), if_neg hl, List.append_nil, List.append_assoc]
        exact h1.append (Closed.instruction (decimal_instruction _) newline_space)
    · intro hv hs
      have h3 := h2 hv hs
      have hlen : (decimal image.data[image.width.toNat * y + x]).length ≤ 5 := by
        have := hv _ (Array.getElem_mem hk)
        exact decimal_length (by omega) (by omega)
      have hm : x % 11 < 11 := Nat.mod_lt _ (by omega)
      have h4 := h3.word (decimal_no_newline image.data[image.width.toNat * y + x]) (m := 6 * (x % 11) + 5)
        (by omega) (by omega)
      simp only
      by_cases hl : x + 1 < image.width.toNat
      · rw [if_pos hl, if_neg (show ¬ x + 1 = image.width.toNat by omega)]
        by_cases h11 : (x + 1) % 11 = 0
        · rw [if_pos h11, h11]
          exact h4.line
        · rw [if_neg h11]
          exact h4.word space_no_newline (by simp; omega) (by omega)
      · rw [if_neg hl, if_pos (by omega), List.append_nil]
        exact ⟨h4.1, by have := h4.2; omega⟩

theorem writePgm_mk {image : Image} (hs : image.Sized) (hm : image.Meaningful) :
    Ok (writePgm (some image)) fun out =>
      Closed out (imageInstructions image image.data.size) ∧
      (image.maxValue.toNat ≤ 65536 → Short out 0) := by
  obtain ⟨hw, hh, hmax, hdata⟩ := hm
  obtain ⟨b, hb, hiff⟩ := imageValid_mk image hs.size hs.small
  have hb' : b = true := hiff.2 ⟨hw, hh, hmax, hdata⟩
  subst hb'
  unfold writePgm
  simp only [hb, bind_ok, Bool.not_true, Bool.false_eq_true, if_false]
  have hcl : Closed (FORMAT_CODE ++ [newline] ++ decimal image.width ++ [32] ++ decimal image.height ++ [newline] ++
      decimal image.maxValue ++ [newline]) (imageInstructions image 0) := by
    have e : imageInstructions image 0 = [FORMAT_CODE] ++ [decimal image.width] ++ [decimal image.height] ++
      [decimal image.maxValue] := by simp [imageInstructions]
    rw [e]
    have h1 := Closed.instruction format_instruction newline_space
    have h2 := Closed.instruction (decimal_instruction image.width) (c := 32) (by decide)
    have h3 := Closed.instruction (decimal_instruction image.height) newline_space
    have h4 := Closed.instruction (decimal_instruction image.maxValue) newline_space
    have := ((h1.append h2).append h3).append h4
    simpa [List.append_assoc] using this
  have hsh : Short (FORMAT_CODE ++ [newline] ++ decimal image.width ++ [32] ++ decimal image.height ++ [newline] ++
      decimal image.maxValue ++ [newline]) 0 := by
    have l : ∀ v : UInt64, (decimal v).length ≤ 20 := fun v =>
      decimal_length (by have := toNat_lt' v; omega) (by omega)
    have a0 : Short FORMAT_CODE 2 := by constructor <;> decide
    have a1 := a0.line.word (decimal_no_newline image.width) (m := 20) (by have := l image.width; omega) (by omega)
    have a2 := a1.word space_no_newline (m := 21) (by simp) (by omega)
    have a3 := a2.word (decimal_no_newline image.height) (m := 41) (by have := l image.height; omega) (by omega)
    have a4 := a3.line.word (decimal_no_newline image.maxValue) (m := 20) (by have := l image.maxValue; omega) (by omega)
    exact a4.line
  have hres := cfor_all (cond := fun y => decide (y < image.height))
    (body := fun y out =>
        match writeRow image y out with
        | .error e => .error e
        | .ok out => .ok (out ++ [newline], false))
    (s := FORMAT_CODE ++ [newline] ++ decimal image.width ++ [32] ++ decimal image.height ++ [newline] ++
      decimal image.maxValue ++ [newline]) (fuel := image.height.toNat) image.height.toNat
    (fun y out => Closed out (imageInstructions image (image.width.toNat * y)) ∧
      (image.maxValue.toNat ≤ 65536 → Short out 0)) (Nat.le_refl _) (fun k hk => cond_lt _ _ hk) ⟨hcl, fun _ => hsh⟩ ?_
  · refine hres.mono ?_
    rintro out ⟨h1, h2⟩
    rw [hs.size]
    exact ⟨h1, h2⟩
  · rintro y out hy ⟨h1, h2⟩
    obtain ⟨out', e, h3, h4⟩ := writeRow_mk hs.size (by have := hs.small; omega) hw hy h1
    rw [e]
    refine Ok.pure ⟨rfl, h3, fun h => ?_⟩
    exact (h4 (fun v hv => Nat.le_trans (hdata v hv) h) (h2 h)).line

/-- Numbers of a written image. -/
theorem numbers_decimal (vs : List UInt64) (ts : List Text) :
    numbers vs.length (vs.map decimal ++ ts) = .ok (some (vs, ts)) := by
  induction vs with
  | nil => rfl
  | cons v vs ih =>
    simp only [List.length_cons, List.map_cons, List.cons_append]
    rw [numbers_cons (stoul_decimal v), ih]
    rfl

end SP
