import Verif.Model.ReadErrors
import Verif.Lemmas.ParPipe
import Verif.Lemmas.PgmSpec
/-!
# Read errors: a stream that fails is never taken for one that ends
-/
namespace SP

/-! ## Without errors -/

namespace Faulty

theorem extract_none : extract none = IStream.extract := by
  funext s str
  unfold extract IStream.extract
  cases s.good with
  | false => rfl
  | true =>
    rcases s.rest.dropWhile isSpace with _ | ⟨c, r⟩
    · rfl
    · simp only [Bool.not_true, Bool.false_eq_true, if_false]
      cases (r.dropWhile fun c => !isSpace c).isEmpty <;> rfl

theorem ignoreLine_none : ignoreLine none = IStream.ignoreLine := rfl

theorem get_none : get none = IStream.get := rfl

theorem readPgmInstruction_none (s : IStream) : readPgmInstruction none s = SP.readPgmInstruction s := by
  unfold readPgmInstruction SP.readPgmInstruction
  rw [extract_none, ignoreLine_none]

theorem checkFileEnd_none (s : IStream) : checkFileEnd none s = SP.checkFileEnd s := by
  unfold checkFileEnd SP.checkFileEnd
  rw [get_none, ignoreLine_none]
  rfl

theorem readNumber_none (s : IStream) : readNumber none s = SP.readNumber s := by
  unfold readNumber SP.readNumber
  simp only [readPgmInstruction_none]
  rfl

theorem readHeader_none (s : IStream) : readHeader none s = SP.readHeader s := by
  unfold readHeader SP.readHeader
  simp only [readNumber_none]
  rfl

theorem readPixel_none : readPixel none = SP.readPixel := by
  funext image y x st
  unfold readPixel SP.readPixel
  simp only [readNumber_none]
  rfl

theorem readData_none (s : IStream) (image : Image) : readData none s image = SP.readData s image := by
  unfold readData SP.readData readRow SP.readRow
  rw [readPixel_none]
  rfl

theorem readPgm_none (limit : Nat) (held : Option Image) (s : IStream) : readPgm none limit held s = SP.readPgm limit held s := by
  unfold readPgm SP.readPgm
  simp only [readPgmInstruction_none, readHeader_none, readData_none, checkFileEnd_none]
  rfl

end Faulty

/-! ## With errors -/

/-- An error has happened. -/
def Failed (s : IStream) : Prop := s.fail = true ∧ s.eof = false

/-- An exception; undefined behaviour only if `W`. -/
def IsExc (W : Prop) (e : Err) : Prop := (∃ x, e = .exc x) ∨ (e = .ub ∧ W)

/-- The function does the same as without errors and has not reached the end, or a failure of the stream is noticed. -/
def Follows (W : Prop) {α : Type} (π : α → IStream) (Q : α → Prop) (m n : M α) : Prop :=
  (m = n ∧ ∀ a, m = .ok a → (π a).eof = false ∧ Q a) ∨ Res (IsExc W) m fun a => Failed (π a)

section
variable {W : Prop} {α β : Type} {π : α → IStream} {ρ : β → IStream} {Q : α → Prop} {R : β → Prop}

theorem Follows.ok {a : α} (h : (π a).eof = false) (hq : Q a) : Follows W π Q (.ok a) (.ok a) :=
  .inl ⟨rfl, by rintro _ ⟨⟩; exact ⟨h, hq⟩⟩

theorem Follows.error (e : Err) : Follows W π Q (.error e) (.error e) := .inl ⟨rfl, by rintro _ ⟨⟩⟩

theorem Follows.bind {m n : M α} {f g : α → M β} (h : Follows W π Q m n) (hf : ∀ a, n = .ok a → (π a).eof = false → Q a → Follows W ρ R (f a) (g a))
    (hx : ∀ a, Failed (π a) → Res (IsExc W) (f a) fun b => Failed (ρ b)) : Follows W ρ R (m >>= f) (n >>= g) := by
  rcases h with ⟨rfl, h⟩ | h
  · cases m with
    | error e => exact .error e
    | ok a => exact hf a rfl (h a rfl).1 (h a rfl).2
  · exact .inr (h.bind hx)

/-- The beginning is the same. -/
theorem Follows.after {γ : Type} {m : M γ} {f g : γ → M β} (hf : ∀ a, m = .ok a → Follows W ρ R (f a) (g a)) : Follows W ρ R (m >>= f) (m >>= g) := by
  cases m with
  | error e => exact .error e
  | ok a => exact hf a rfl

theorem Follows.mono {m n : M α} {Q' : α → Prop} (h : Follows W π Q m n) (hq : ∀ a, (π a).eof = false → Q a → Q' a) : Follows W π Q' m n := by
  rcases h with ⟨e, h⟩ | h
  · exact .inl ⟨e, fun a ha => ⟨(h a ha).1, hq a (h a ha).1 (h a ha).2⟩⟩
  · exact .inr h

theorem cwhile_follows {σ : Type} {π : σ → IStream} {cond : σ → Bool} {f g : σ → M (σ × Bool)}
    (hf : ∀ s, (π s).eof = false → Follows W (fun r => π r.1) (fun _ => True) (f s) (g s)) (hstop : ∀ s, Failed (π s) → cond s = false)
    (fuel : Nat) {s : σ} (hs : (π s).eof = false) : Follows W π (fun _ => True) (cwhile fuel cond f s) (cwhile fuel cond g s) := by
  induction fuel generalizing s with
  | zero =>
    unfold cwhile
    split
    · exact .error _
    · exact .ok hs trivial
  | succ fuel ih =>
    unfold cwhile
    split
    · rcases hf s hs with ⟨e, h⟩ | h
      · rw [e]
        cases hg : g s with
        | error e => exact .error e
        | ok r =>
          obtain ⟨s', b⟩ := r
          have h' := (h (s', b) (by rw [e, hg])).1
          cases b with
          | true => exact .ok h' trivial
          | false => exact ih h'
      · refine .inr ?_
        cases hfs : f s with
        | error e => rw [hfs] at h; exact h
        | ok r =>
          obtain ⟨s', b⟩ := r
          rw [hfs] at h
          cases b with
          | true => exact h
          | false =>
            show Res (IsExc W) (cwhile fuel cond f s') _
            have hc := hstop s' h
            cases fuel <;> unfold cwhile <;> rw [hc] <;> exact h
    · exact .ok hs trivial

/-- Without `break` the condition is false after the loop. -/
theorem cwhile_cond {σ : Type} {cond : σ → Bool} {f : σ → M (σ × Bool)} (hf : ∀ s r, f s = .ok r → r.2 = false) (fuel : Nat) {s r : σ}
    (h : cwhile fuel cond f s = .ok r) : cond r = false := by
  induction fuel generalizing s with
  | zero =>
    unfold cwhile at h
    split at h
    · cases h
    · cases h; exact (Bool.not_eq_true _).mp ‹¬ cond _ = true›
  | succ fuel ih =>
    unfold cwhile at h
    split at h
    · cases hfs : f s with
      | error e => rw [hfs] at h; cases h
      | ok q =>
        obtain ⟨s', b⟩ := q
        rw [hfs] at h
        cases (hf s _ hfs : b = false)
        exact ih h
    · cases h; exact (Bool.not_eq_true _).mp ‹¬ cond _ = true›

section
variable {σ : Type} {π : σ → IStream} {n : UInt64} {f g : UInt64 → σ → M (σ × Bool)}

theorem inc_bound {i : UInt64} {fuel : Nat} (hi : i < n) (h : n.toNat ≤ fuel + 1 + i.toNat) : n.toNat ≤ fuel + (inc i).toNat := by
  have := UInt64.lt_iff_toNat_lt.1 hi
  have := n.toNat_lt
  rw [inc, UInt64.toNat_add, show (1 : UInt64).toNat = 1 from rfl, Nat.mod_eq_of_lt (by omega)]
  omega

theorem cfor_stays_failed (hx : ∀ i s, Failed (π s) → Res (IsExc W) (f i s) fun r => Failed (π r.1)) (fuel : Nat) {i : UInt64}
    (hn : n.toNat ≤ fuel + i.toNat) {s : σ} (hs : Failed (π s)) :
    Res (IsExc W) (cfor fuel i (fun i => decide (i < n)) inc f s) fun r => Failed (π r) := by
  induction fuel generalizing i s with
  | zero =>
    have : ¬ i < n := by rw [UInt64.lt_iff_toNat_lt]; omega
    simp only [cfor, this, decide_false]
    exact hs
  | succ fuel ih =>
    unfold cfor
    split
    · rename_i hi
      have h := hx i s hs
      cases hfs : f i s with
      | error e => rw [hfs] at h; exact h
      | ok q =>
        obtain ⟨s', b⟩ := q
        rw [hfs] at h
        cases b with
        | true => exact h
        | false => exact ih (inc_bound (of_decide_eq_true hi) hn) h
    · exact hs

theorem cfor_follows {Q : σ → Prop} (hf : ∀ i s, i < n → (π s).eof = false → Q s → Follows W (fun r => π r.1) (fun r => Q r.1) (f i s) (g i s))
    (hx : ∀ i s, Failed (π s) → Res (IsExc W) (f i s) fun r => Failed (π r.1)) (fuel : Nat) {i : UInt64}
    (hn : n.toNat ≤ fuel + i.toNat) {s : σ} (hs : (π s).eof = false) (hq : Q s) :
    Follows W π Q (cfor fuel i (fun i => decide (i < n)) inc f s) (cfor fuel i (fun i => decide (i < n)) inc g s) := by
  induction fuel generalizing i s with
  | zero =>
    unfold cfor
    split
    · exact .error _
    · exact .ok hs hq
  | succ fuel ih =>
    unfold cfor
    split
    · rename_i hi
      have hb := inc_bound (of_decide_eq_true hi) hn
      rcases hf i s (of_decide_eq_true hi) hs hq with ⟨e, h⟩ | h
      · rw [e]
        cases hg : g i s with
        | error e => exact .error e
        | ok r =>
          obtain ⟨s', b⟩ := r
          obtain ⟨h1, h2⟩ := h (s', b) (by rw [e, hg])
          cases b with
          | true => exact .ok h1 h2
          | false => exact ih hb h1 h2
      · refine .inr ?_
        cases hfs : f i s with
        | error e => rw [hfs] at h; exact h
        | ok r =>
          obtain ⟨s', b⟩ := r
          rw [hfs] at h
          cases b with
          | true => exact h
          | false => exact cfor_stays_failed hx fuel hb h
    · exact .ok hs hq

end
end

theorem Failed.setFail {s : IStream} (h : s.eof = false) : Failed s.setFail := ⟨rfl, h⟩

theorem Failed.good {s : IStream} (h : Failed s) : s.good = false := by simp [IStream.good, h.1]

theorem failed_of {s : IStream} (hg : (!s.good) = true) (h : s.eof = false) : s.fail = true := by
  simpa [IStream.good, h] using hg

namespace Faulty
variable {W : Prop} {cut : Text → Text}

theorem extract_cases {s : IStream} (hs : s.eof = false) (str : Text) :
    Failed (extract (some cut) s str).1 ∨ (extract (some cut) s str = s.extract str ∧ (extract (some cut) s str).1.eof = false) := by
  unfold extract IStream.extract
  cases s.good with
  | false => exact .inl (.setFail hs)
  | true =>
    rcases s.rest.dropWhile isSpace with _ | ⟨c, r⟩
    · exact .inl ⟨rfl, rfl⟩
    · simp only [Bool.not_true, Bool.false_eq_true, if_false]
      cases (r.dropWhile fun c => !isSpace c).isEmpty
      · exact .inr ⟨rfl, rfl⟩
      · exact .inl ⟨rfl, rfl⟩

theorem ignoreLine_cases {s : IStream} (hs : s.eof = false) :
    Failed (ignoreLine (some cut) s) ∨ (ignoreLine (some cut) s = s.ignoreLine ∧ (ignoreLine (some cut) s).eof = false) := by
  unfold ignoreLine IStream.ignoreLine
  cases s.good with
  | false => exact .inl (.setFail hs)
  | true =>
    rcases s.rest.dropWhile (fun c => c != newline) with _ | ⟨c, r⟩
    · exact .inl ⟨rfl, rfl⟩
    · exact .inr ⟨rfl, hs⟩

theorem ignoreLine_failed {s : IStream} (hs : Failed s) : Failed (ignoreLine (some cut) s) := by
  unfold ignoreLine
  rw [hs.good]
  exact .setFail hs.2

theorem get_cases {s : IStream} (hs : s.eof = false) (c : Option UInt8) :
    (get (some cut) s c).2 = (s.get c).2 ∧
    (Failed (get (some cut) s c).1 ∨ ((get (some cut) s c).1 = (s.get c).1 ∧ (get (some cut) s c).1.eof = false)) := by
  unfold get IStream.get
  cases s.good with
  | false => exact ⟨rfl, .inl (.setFail hs)⟩
  | true =>
    rcases s.rest with _ | ⟨b, r⟩
    · exact ⟨rfl, .inl ⟨rfl, rfl⟩⟩
    · exact ⟨rfl, .inr ⟨rfl, hs⟩⟩

theorem instruction_failed {s : IStream} (hs : Failed s) : readPgmInstruction (some cut) s = .ok (s, []) := by
  unfold readPgmInstruction
  rw [hs.1]
  rfl

theorem instruction_follows {s : IStream} (hs : s.eof = false) :
    Follows W Prod.fst (fun _ => True) (readPgmInstruction (some cut) s) (SP.readPgmInstruction s) := by
  unfold readPgmInstruction SP.readPgmInstruction
  cases hfail : s.fail with
  | true => exact .ok hs trivial
  | false =>
    simp only [Bool.false_eq_true, if_false]
    have hend : ∀ a : IStream × Text, a.1.eof = false → Follows W Prod.fst (fun _ => True)
        (if (a.2.headD 0 == hash) = true then pure (a.1, []) else pure (a.1, a.2) : M (IStream × Text))
        (if (a.2.headD 0 == hash) = true then pure (a.1, []) else pure (a.1, a.2)) := by
      intro a ha
      split <;> exact .ok ha trivial
    have hendx : ∀ a : IStream × Text, Failed a.1 → Res (IsExc W)
        (if (a.2.headD 0 == hash) = true then pure (a.1, []) else pure (a.1, a.2) : M (IStream × Text)) fun b => Failed b.1 := by
      intro a ha
      split <;> exact ha
    rcases extract_cases (cut := cut) hs [] with h | ⟨h, h'⟩
    · refine .inr ?_
      refine Res.bind (P := fun a => Failed a.1) ?_ fun a ha => hendx a ha
      unfold cwhile
      rw [h.good]
      exact h
    · rw [h] at h' ⊢
      refine .bind (π := Prod.fst) (Q := fun _ => True) (cwhile_follows ?_ ?_ _ h') (fun a _ ha _ => hend a ha) fun a ha => hendx a ha
      · rintro ⟨s, t⟩ hs
        dsimp only
        rcases ignoreLine_cases (cut := cut) hs with h | ⟨h, h'⟩
        · rw [h.1]
          exact .inr h
        · rw [h] at h' ⊢
          split
          · exact .ok h' trivial
          · rcases extract_cases (cut := cut) h' t with h2 | ⟨h2, h2'⟩
            · exact .inr h2
            · rw [h2] at h2' ⊢
              exact .ok h2' trivial
      · rintro ⟨s, t⟩ hs
        simp [Failed.good hs]

theorem number_failed {s : IStream} (hs : Failed s) : readNumber (some cut) s = .ok (s, none) := by
  unfold readNumber
  rw [instruction_failed hs]
  show (.ok (s.setFail, none) : M (IStream × Option UInt64)) = _
  obtain ⟨r, e, f⟩ := s
  cases hs.1
  rfl

theorem number_follows {s : IStream} (hs : s.eof = false) :
    Follows W Prod.fst (fun r => r.2 = none → r.1.fail = true) (readNumber (some cut) s) (SP.readNumber s) := by
  unfold readNumber SP.readNumber
  refine (instruction_follows hs).bind ?_ ?_
  · rintro ⟨s, t⟩ - hs -
    dsimp only
    rcases catch_cases t with ⟨v, h⟩ | h | h <;> simp only [h]
    · exact .ok hs nofun
    · exact .ok hs fun _ => rfl
    · exact .error _
  · rintro ⟨s, t⟩ hs
    dsimp only
    rcases catch_cases t with ⟨v, h⟩ | h | h <;> simp only [h]
    · exact hs
    · exact .setFail hs.2
    · exact .inl ⟨_, rfl⟩

theorem header_follows {s : IStream} (hs : s.eof = false) :
    Follows W Prod.fst (fun r => r.2 = none → r.1.fail = true) (readHeader (some cut) s) (SP.readHeader s) := by
  have hfin : ∀ s : IStream, Failed s → Res (IsExc W) (readNumber (some cut) s) fun r => Failed r.1 := fun s hs => by
    rw [number_failed hs]; exact hs
  unfold readHeader SP.readHeader
  refine (number_follows hs).bind ?_ ?_
  · rintro ⟨s, _ | w⟩ - hs hq
    · exact .ok hs fun _ => hq rfl
    · refine (number_follows hs).bind ?_ ?_
      · rintro ⟨s, _ | h⟩ - hs hq
        · exact .ok hs fun _ => hq rfl
        · refine (number_follows hs).bind ?_ ?_
          · rintro ⟨s, _ | m⟩ - hs hq
            · exact .ok hs fun _ => hq rfl
            · exact .ok hs nofun
          · rintro ⟨s, _ | m⟩ hs <;> exact hs
      · rintro ⟨s, _ | h⟩ hs
        · exact hs
        · refine (hfin s hs).bind ?_
          rintro ⟨s, _ | m⟩ hs <;> exact hs
  · rintro ⟨s, _ | w⟩ hs
    · exact hs
    · refine (hfin s hs).bind ?_
      rintro ⟨s, _ | h⟩ hs
      · exact hs
      · refine (hfin s hs).bind ?_
        rintro ⟨s, _ | m⟩ hs <;> exact hs

theorem header_failed {s : IStream} (hs : Failed s) : readHeader (some cut) s = .ok (s, none) := by
  unfold readHeader
  rw [number_failed hs]
  rfl

theorem pixel_failed {image : Image} {y x : UInt64} {st : ReadState} (hs : Failed st.1) :
    readPixel (some cut) image y x st = .ok ((st.1, st.2.1, true), true) := by
  unfold readPixel
  rw [number_failed hs]
  rfl

/-- Loops over pixels: the size of data; if the function has returned, it is because of a failure. -/
structure Reading (n : Nat) (st : ReadState) : Prop where
  size : st.2.1.size = n
  returned : st.2.2 = true → st.1.fail = true

theorem wr_size {α : Type} {a b : Array α} {i : UInt64} {v : α} (h : wr a i v = .ok b) : b.size = a.size := by
  unfold wr at h
  split at h
  · cases h; exact Array.size_setIfInBounds ..
  · cases h

theorem wr_ub {image : Image} {x y v : UInt64} {data : Array UInt64} (hx : x < image.width) (hy : y < image.height)
    (hd : data.size = (image.width * image.height).toNat) :
    Res (IsExc (18446744073709551616 ≤ image.width.toNat * image.height.toNat)) (wr data (pixelIndex image ⟨x, y⟩) v) fun _ => True := by
  by_cases hw : image.width.toNat * image.height.toNat < 18446744073709551616
  · have h1 := pidx_lt (UInt64.lt_iff_toNat_lt.1 hx) (UInt64.lt_iff_toNat_lt.1 hy)
    rw [pixelIndex_eq, wr_ofNat (by simp only; omega) (by rw [hd, UInt64.toNat_mul, Nat.mod_eq_of_lt hw]; exact h1)]
    trivial
  · unfold wr
    split
    · trivial
    · exact .inr ⟨rfl, by omega⟩

/-- Wrong sizes of an image. -/
abbrev Wraps (image : Image) : Prop := 18446744073709551616 ≤ image.width.toNat * image.height.toNat

theorem pixel_follows {image : Image} {y x : UInt64} (hx : x < image.width) (hy : y < image.height) {st : ReadState} (hs : st.1.eof = false)
    (hq : Reading (image.width * image.height).toNat st) :
    Follows (Wraps image) (fun r : ReadState × Bool => r.1.1) (fun r => Reading (image.width * image.height).toNat r.1)
      (readPixel (some cut) image y x st) (SP.readPixel image y x st) := by
  unfold readPixel SP.readPixel
  refine (number_follows hs).bind ?_ ?_
  · rintro ⟨s, _ | v⟩ - hs h
    · exact .ok hs ⟨hq.size, fun _ => h rfl⟩
    · dsimp only
      exact .after fun d hd => .ok hs ⟨(wr_size hd).trans hq.size, nofun⟩
  · rintro ⟨s, _ | v⟩ hs
    · exact hs
    · exact Res.bind (wr_ub hx hy hq.size) fun _ _ => hs

theorem row_failed {image : Image} {y : UInt64} {st : ReadState} (hs : Failed st.1) :
    Res (IsExc W) (readRow (some cut) image y st) fun r => Failed r.1 :=
  cfor_stays_failed (π := fun st : ReadState => st.1) (fun x st hs => by rw [pixel_failed hs]; exact hs) _ (by simp) hs

theorem data_failed {image : Image} {s : IStream} (hs : Failed s) : Res (IsExc W) (readData (some cut) s image) fun r => Failed r.1 := by
  unfold readData
  refine cfor_stays_failed (π := fun st : ReadState => st.1) (fun y st hs => ?_) _ (by simp) hs
  have h := row_failed (W := W) (cut := cut) (image := image) (y := y) hs
  cases hr : readRow (some cut) image y st with
  | error e => rw [hr] at h; exact h
  | ok r => rw [hr] at h; exact h

theorem data_follows {image : Image} {s : IStream} (hs : s.eof = false) (hd : image.data.size = (image.width * image.height).toNat) :
    Follows (Wraps image) (fun st : ReadState => st.1) (fun st => Reading (image.width * image.height).toNat st)
      (readData (some cut) s image) (SP.readData s image) := by
  unfold readData SP.readData
  refine cfor_follows (fun y st hy hs hq => ?_) (fun y st hs => ?_) _ (by simp) hs ⟨hd, nofun⟩
  · have h : Follows (Wraps image) (fun st : ReadState => st.1) (fun st => Reading (image.width * image.height).toNat st)
        (readRow (some cut) image y st) (SP.readRow image y st) :=
      cfor_follows (fun x st hx hs hq => pixel_follows hx hy hs hq) (fun x st hs => by rw [pixel_failed hs]; exact hs) _ (by simp) hs hq
    rcases h with ⟨e, h⟩ | h
    · rw [e] at h ⊢
      cases hr : SP.readRow image y st with
      | error e => exact .error e
      | ok r => exact .ok (h r hr).1 (h r hr).2
    · refine .inr ?_
      cases hr : readRow (some cut) image y st with
      | error e => rw [hr] at h; exact h
      | ok r => rw [hr] at h; exact h
  · have h := row_failed (W := Wraps image) (cut := cut) (image := image) (y := y) hs
    cases hr : readRow (some cut) image y st with
    | error e => rw [hr] at h; exact h
    | ok r => rw [hr] at h; exact h

theorem end_failed {s : IStream} (hs : Failed s) : checkFileEnd (some cut) s = .ok (s, false) := by
  unfold checkFileEnd cwhile
  simp only [hs.good, hs.2, Bool.false_and, Bool.false_eq_true, if_false]
  show (.ok _ : M (IStream × Bool)) = _
  simp only [hs.2, hs.good, Bool.false_eq_true, if_false]

theorem end_follows {s : IStream} (hs : s.eof = false) :
    Follows W Prod.fst (fun r => r.1.fail = true) (checkFileEnd (some cut) s) (SP.checkFileEnd s) := by
  have hloop : ∀ f g : IStream × Option UInt8 → M ((IStream × Option UInt8) × Bool), (∀ s r, f s = .ok r → r.2 = false) →
      (∀ s, s.1.eof = false → Follows W (fun r => r.1.1) (fun _ => True) (f s) (g s)) → ∀ (fuel : Nat) (a : IStream × Option UInt8), a.1.eof = false →
      Follows W (fun r : IStream × Option UInt8 => r.1) (fun r => r.1.fail = true)
        (cwhile fuel (fun st => st.1.good && !st.1.eof) f a) (cwhile fuel (fun st => st.1.good && !st.1.eof) g a) := by
    intro f g hf hfg fuel a ha
    rcases cwhile_follows (π := Prod.fst) (cond := fun st : IStream × Option UInt8 => st.1.good && !st.1.eof) hfg (fun s hs => by simp [Failed.good hs])
      fuel ha with ⟨e, h⟩ | h
    · refine .inl ⟨e, fun r hr => ⟨(h r hr).1, ?_⟩⟩
      have hc := cwhile_cond hf fuel hr
      have he := (h r hr).1
      simpa [IStream.good, he] using hc
    · exact .inr h
  unfold checkFileEnd SP.checkFileEnd
  refine (hloop _ _ ?_ ?_ _ _ hs).bind ?_ ?_
  · rintro ⟨s, c⟩ r h
    dsimp only at h
    cases hc : (get (some cut) s c).2 with
    | none => rw [hc] at h; cases h
    | some c =>
      rw [hc] at h
      dsimp only at h
      split at h
      · cases h; rfl
      · cases hi : isspaceChar c with
        | error e => rw [hi] at h; cases h
        | ok b => rw [hi] at h; cases b <;> (cases h; rfl)
  · rintro ⟨s, c⟩ hs
    dsimp only
    obtain ⟨h1, h2⟩ := get_cases (cut := cut) hs c
    rw [h1]
    cases hc : (s.get c).2 with
    | none => exact .error _
    | some c' =>
      dsimp only
      rcases h2 with h2 | ⟨h2, h3⟩
      · split
        · exact .inr (ignoreLine_failed h2)
        · refine .after fun b _ => .inr ?_
          cases b
          · exact Failed.setFail h2.2
          · exact h2
      · rw [h2] at h3 ⊢
        split
        · rcases ignoreLine_cases (cut := cut) h3 with h | ⟨h, h'⟩
          · exact .inr h
          · rw [h] at h' ⊢
            exact .ok h' trivial
        · refine .after fun b _ => ?_
          cases b
          · exact .ok h3 trivial
          · exact .ok h3 trivial
  · rintro ⟨s, c⟩ - hs hq
    dsimp only
    rw [if_neg (by simp [show s.eof = false from hs])]
    exact .ok hs hq
  · rintro ⟨s, c⟩ hs
    dsimp only
    rw [if_neg (by simp [show s.eof = false from hs.2])]
    exact hs

theorem _root_.SP.Follows.weaken {α : Type} {W' : Prop} {π : α → IStream} {Q : α → Prop} {m n : M α} (h : Follows W π Q m n) (hw : W → W') :
    Follows W' π Q m n := by
  rcases h with h | h
  · exact .inl h
  · exact .inr (h.weaken fun e he => he.imp id fun h => ⟨h.1, hw h.2⟩)

theorem header_of {text : Text} {s1 s2 : IStream} {w h m : UInt64} (e1 : SP.readPgmInstruction (.opened text) = .ok (s1, FORMAT_CODE))
    (e2 : SP.readHeader s1 = .ok (s2, some (w, h, m))) : HeaderOf (instructions text) w h m := by
  obtain ⟨r, e, h1⟩ := readPgmInstruction_mk (opened_ahead text)
  cases e1.symm.trans e
  rcases h1 with ⟨-, h1⟩ | ⟨-, ts, hts, ha⟩
  · cases h1
  · have hh := readHeader_mk ha.toAhead
    have hv : ∀ t ∈ ts, IsInstruction t := fun t ht => instructions_valid (s := text) (by rw [hts]; exact List.mem_cons_of_mem _ ht)
    rw [e2] at hh
    rcases numbers_cases 3 hv with ⟨ds, rest, vs, rfl, h3, h4, h5⟩ | ⟨h5, -⟩ | ⟨h5, -⟩
    · rw [h5] at hh
      obtain ⟨a, b, c, rfl, h6, -⟩ := hh
      cases h6
      rw [hts]
      cases h4 with
      | cons k1 h4 => cases h4 with
        | cons k2 h4 => cases h4 with
          | cons k3 h4 => cases h4; exact ⟨_, _, _, rest, rfl, k1, k2, k3⟩
    · rw [h5] at hh
      exact absurd hh.1 nofun
    · rw [h5] at hh
      cases hh

/-- The header of the text gives a wrong number of pixels. -/
def WrappedHeader (text : Text) : Prop := ∃ w h m, HeaderOf (instructions text) w h m ∧ 18446744073709551616 ≤ w.toNat * h.toNat

theorem pgm_follows (limit : Nat) (held : Option Image) (text : Text) :
    Follows (WrappedHeader text) Prod.fst (fun r => r.1.fail = true) (readPgm (some cut) limit held (.opened text))
      (SP.readPgm limit held (.opened text)) := by
  unfold readPgm SP.readPgm
  refine (instruction_follows rfl).bind ?_ ?_
  · rintro ⟨s, t⟩ e1 hs -
    dsimp only
    by_cases ht : t = FORMAT_CODE
    · subst ht
      simp only [ne_eq, not_true_eq_false, if_false]
      refine (header_follows hs).bind ?_ ?_
      · rintro ⟨s, _ | ⟨w, h, m⟩⟩ e2 hs hq
        · exact .ok hs (hq rfl)
        · dsimp only
          have hh := header_of e1 e2
          split
          · exact .ok hs rfl
          · refine .after fun d hd => ?_
            have hsize := resizeEmpty_ok hd
            refine ((data_follows (image := ⟨w, h, m, d⟩) hs ?_).weaken fun hw => ⟨w, h, m, hh, hw⟩).bind ?_ ?_
            · rw [hsize, Array.size_replicate]
            · rintro ⟨s, d, b⟩ - hs hq
              dsimp only
              cases b with
              | true => exact .ok hs (hq.returned rfl)
              | false => exact (end_follows hs).bind (fun r _ hs hq => .ok hs hq) fun r hs => hs
            · rintro ⟨s, d, b⟩ hs
              dsimp only
              cases b with
              | true => exact hs
              | false =>
                simp only [Bool.false_eq_true, if_false]
                rw [end_failed hs]
                exact hs
      · rintro ⟨s, _ | ⟨w, h, m⟩⟩ hs
        · exact hs
        · dsimp only
          split
          · exact .setFail hs.2
          · cases hd : resizeEmpty limit (w * h) with
            | error e =>
              unfold resizeEmpty at hd
              split at hd
              · cases hd; exact .inl ⟨_, rfl⟩
              · split at hd
                · cases hd; exact .inl ⟨_, rfl⟩
                · cases hd
            | ok d =>
              rw [bind_ok]
              refine Res.bind (data_failed hs) ?_
              rintro ⟨s, d, b⟩ hs
              dsimp only
              cases b with
              | true => exact hs
              | false =>
                simp only [Bool.false_eq_true, if_false]
                rw [end_failed hs]
                exact hs
    · rw [if_pos ht, if_pos ht]
      exact .ok hs rfl
  · rintro ⟨s, t⟩ hs
    dsimp only
    split
    · exact .setFail hs.2
    · rw [header_failed hs]
      exact hs

end Faulty
end SP
