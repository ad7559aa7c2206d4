import Verif.Model.Basic
/-!
# Reasoning about outcomes and loops of the model
-/
namespace SP

/-- `m` returns a value (no undefined behaviour, no exception, termination) that satisfies `Q`. -/
def Ok {α : Type} (m : M α) (Q : α → Prop) : Prop := ∃ a, m = .ok a ∧ Q a

@[simp] theorem bind_ok {α β : Type} (a : α) (f : α → M β) : ((Except.ok a : M α) >>= f) = f a := rfl
@[simp] theorem bind_error {α β : Type} (e : Err) (f : α → M β) :
    ((Except.error e : M α) >>= f) = .error e := rfl
@[simp] theorem pure_eq_ok {α : Type} (a : α) : (pure a : M α) = .ok a := rfl
@[simp] theorem throw_eq_error {α : Type} (e : Err) : (throw e : M α) = .error e := rfl

theorem Ok.bind {α β : Type} {m : M α} {f : α → M β} {P : α → Prop} {Q : β → Prop}
    (h : Ok m P) (hf : ∀ a, P a → Ok (f a) Q) : Ok (m >>= f) Q := by
  obtain ⟨a, rfl, ha⟩ := h
  exact hf a ha

theorem Ok.pure {α : Type} {a : α} {Q : α → Prop} (h : Q a) : Ok (Except.ok a) Q := ⟨a, rfl, h⟩

theorem Ok.mono {α : Type} {m : M α} {P Q : α → Prop} (h : Ok m P) (hpq : ∀ a, P a → Q a) : Ok m Q := by
  obtain ⟨a, rfl, ha⟩ := h
  exact ⟨a, rfl, hpq a ha⟩

theorem Ok.eq_iff {α : Type} {m : M α} {a : α} : Ok m (· = a) ↔ m = .ok a := by
  constructor
  · rintro ⟨b, h, rfl⟩; exact h
  · intro h; exact ⟨a, h, rfl⟩

@[simp] theorem Ok_ok {α : Type} {a : α} {Q : α → Prop} : Ok (.ok a : M α) Q ↔ Q a := by
  simp [Ok]

/-! ## `UInt64` -/

@[simp] theorem toNat_ofNat {k : Nat} : (UInt64.ofNat k).toNat = k % 18446744073709551616 := by
  simp [UInt64.toNat_ofNat']

theorem toNat_ofNat_lt {k : Nat} (h : k < 18446744073709551616) : (UInt64.ofNat k).toNat = k := by
  simp; omega

theorem toNat_lt' (a : UInt64) : a.toNat < 18446744073709551616 := a.toNat_lt

theorem u64_eq_ofNat (a : UInt64) : a = UInt64.ofNat a.toNat := by simp

theorem inc_ofNat (k : Nat) : inc (UInt64.ofNat k) = UInt64.ofNat (k + 1) := by
  simp [inc, UInt64.ofNat_add]

theorem ofNat_inj {a b : Nat} (ha : a < 18446744073709551616) (hb : b < 18446744073709551616) :
    UInt64.ofNat a = UInt64.ofNat b ↔ a = b := by
  rw [← UInt64.toNat_inj]; simp; omega

theorem ofNat_eq_iff {a : Nat} {b : UInt64} (ha : a < 18446744073709551616) :
    UInt64.ofNat a = b ↔ a = b.toNat := by
  rw [← UInt64.toNat_inj]; simp; omega

/-! ## Arrays -/

theorem rd_ofNat {α : Type} {a : Array α} {k : Nat} (hk : k < 18446744073709551616) (h : k < a.size) :
    rd a (UInt64.ofNat k) = .ok a[k] := by
  simp [rd, Nat.mod_eq_of_lt hk, h]

theorem wr_ofNat {α : Type} {a : Array α} {k : Nat} {v : α} (hk : k < 18446744073709551616)
    (h : k < a.size) : wr a (UInt64.ofNat k) v = .ok (a.setIfInBounds k v) := by
  simp [wr, Nat.mod_eq_of_lt hk, h]

/-! ## Loops -/

/-- General rule for loops counting up by one from `lo` while the counter is less than `n`. -/
theorem cfor_rule {σ : Type} {fuel : Nat} {i : UInt64} {cond : UInt64 → Bool}
    {body : UInt64 → σ → M (σ × Bool)} {s : σ}
    (lo n : Nat) (P : Nat → σ → Prop) (R : M σ → Prop)
    (hi : i = UInt64.ofNat lo) (hfuel : n - lo ≤ fuel)
    (hcond : ∀ k, lo ≤ k → k ≤ max lo n → cond (UInt64.ofNat k) = decide (k < n))
    (h0 : P lo s)
    (hstep : ∀ k s, lo ≤ k → k < n → P k s →
      (∃ e, body (UInt64.ofNat k) s = .error e ∧ R (.error e)) ∨
      (∃ s', body (UInt64.ofNat k) s = .ok (s', true) ∧ R (.ok s')) ∨
      (∃ s', body (UInt64.ofNat k) s = .ok (s', false) ∧ P (k + 1) s'))
    (hend : ∀ s, P (max lo n) s → R (.ok s)) :
    R (cfor fuel i cond inc body s) := by
  induction fuel generalizing lo i s with
  | zero =>
    subst hi
    have hl : ¬ lo < n := by omega
    have := hcond lo (Nat.le_refl _) (by omega)
    simp [hl] at this
    simp only [cfor, this]
    refine hend s ?_
    rwa [Nat.max_eq_left (by omega)]
  | succ fuel ih =>
    subst hi
    have hc := hcond lo (Nat.le_refl _) (by omega)
    by_cases hl : lo < n
    · simp [hl] at hc
      simp only [cfor, hc, if_true]
      rcases hstep lo s (Nat.le_refl _) hl h0 with ⟨e, hb, hR⟩ | ⟨s', hb, hR⟩ | ⟨s', hb, hP⟩
      · simpa [hb] using hR
      · simpa [hb] using hR
      · simp only [hb]
        have hm : max (lo + 1) n = max lo n := by omega
        exact ih (lo + 1) (inc_ofNat lo) (by omega)
          (fun k h1 h2 => hcond k (by omega) (by omega)) hP
          (fun k s h1 h2 h3 => hstep k s (by omega) h2 h3)
          (by rw [hm]; exact hend)
    · simp [hl] at hc
      simp only [cfor, hc]
      refine hend s ?_
      rwa [Nat.max_eq_left (by omega)]

/-- Rule for loops that return normally, maybe with `break`. -/
theorem cfor_ok {σ : Type} {fuel : Nat} {i : UInt64} {cond : UInt64 → Bool}
    {body : UInt64 → σ → M (σ × Bool)} {s : σ}
    (lo n : Nat) (P : Nat → σ → Prop) {Q : σ → Prop}
    (hi : i = UInt64.ofNat lo) (hfuel : n - lo ≤ fuel)
    (hcond : ∀ k, lo ≤ k → k ≤ max lo n → cond (UInt64.ofNat k) = decide (k < n))
    (h0 : P lo s)
    (hstep : ∀ k s, lo ≤ k → k < n → P k s →
      Ok (body (UInt64.ofNat k) s) (fun r => if r.2 then Q r.1 else P (k + 1) r.1))
    (hend : ∀ s, P (max lo n) s → Q s) :
    Ok (cfor fuel i cond inc body s) Q := by
  refine cfor_rule lo n P (fun m => Ok m Q) hi hfuel hcond h0 ?_ ?_
  · intro k s h1 h2 h3
    obtain ⟨⟨s', b⟩, hb, hq⟩ := hstep k s h1 h2 h3
    cases b
    · exact .inr (.inr ⟨s', hb, by simpa using hq⟩)
    · exact .inr (.inl ⟨s', hb, by simpa using hq⟩)
  · intro s h; simpa using hend s h

/-- Rule for loops without `break`, from `0`. -/
theorem cfor_all {σ : Type} {fuel : Nat} {cond : UInt64 → Bool}
    {body : UInt64 → σ → M (σ × Bool)} {s : σ}
    (n : Nat) (P : Nat → σ → Prop)
    (hfuel : n ≤ fuel)
    (hcond : ∀ k, k ≤ n → cond (UInt64.ofNat k) = decide (k < n))
    (h0 : P 0 s)
    (hstep : ∀ k s, k < n → P k s →
      Ok (body (UInt64.ofNat k) s) (fun r => r.2 = false ∧ P (k + 1) r.1)) :
    Ok (cfor fuel 0 cond inc body s) (P n) := by
  refine cfor_ok 0 n P rfl hfuel (fun k _ h => hcond k (by omega)) h0 ?_ ?_
  · intro k s _ h2 h3
    refine (hstep k s h2 h3).mono ?_
    rintro ⟨s', b⟩ ⟨rfl, h⟩
    simpa using h
  · intro s h; simpa using h

/-- Rule for loops whose counter takes the values `f 0, f 1, …, f n`. -/
theorem cfor_seq {ι σ : Type} {fuel : Nat} {i : ι} {cond : ι → Bool} {step : ι → ι}
    {body : ι → σ → M (σ × Bool)} {s : σ}
    (f : Nat → ι) (lo n : Nat) (P : Nat → σ → Prop) {Q : σ → Prop}
    (hi : i = f lo) (hlo : lo ≤ n) (hfuel : n - lo ≤ fuel)
    (hf : ∀ k, lo ≤ k → k < n → step (f k) = f (k + 1))
    (hcond : ∀ k, lo ≤ k → k ≤ n → cond (f k) = decide (k < n))
    (h0 : P lo s)
    (hstep : ∀ k s, lo ≤ k → k < n → P k s →
      Ok (body (f k) s) (fun r => if r.2 then Q r.1 else P (k + 1) r.1))
    (hend : ∀ s, P n s → Q s) :
    Ok (cfor fuel i cond step body s) Q := by
  induction fuel generalizing lo i s with
  | zero =>
    subst hi
    have hl : lo = n := by omega
    subst hl
    have := hcond lo (Nat.le_refl _) (Nat.le_refl _)
    simp at this
    simp only [cfor, this]
    exact Ok.pure (hend s h0)
  | succ fuel ih =>
    subst hi
    have hc := hcond lo (Nat.le_refl _) hlo
    by_cases hl : lo < n
    · simp [hl] at hc
      simp only [cfor, hc, if_true]
      obtain ⟨⟨s', b⟩, hb, hq⟩ := hstep lo s (Nat.le_refl _) hl h0
      cases b
      · simp only [hb]
        exact ih (lo + 1) (hf lo (Nat.le_refl _) hl) (by omega) (by omega)
          (fun k h1 h2 => hf k (by omega) h2) (fun k h1 h2 => hcond k (by omega) h2)
          (by simpa using hq) (fun k s h1 h2 h3 => hstep k s (by omega) h2 h3)
      · simp only [hb]
        exact Ok.pure (by simpa using hq)
    · have hl' : lo = n := by omega
      subst hl'
      simp at hc
      simp only [cfor, hc]
      exact Ok.pure (hend s h0)

/-- Condition `i < n` of a loop over `ULONG`. -/
theorem cond_lt (n : UInt64) (k : Nat) (hk : k ≤ n.toNat) :
    decide (UInt64.ofNat k < n) = decide (k < n.toNat) := by
  have := toNat_lt' n
  rw [decide_eq_decide, UInt64.lt_iff_toNat_lt]
  simp; omega

/-- The value of an outcome, or the given one if there is none. -/
def okD {α : Type} (dflt : α) : M α → α
  | .ok a => a
  | .error _ => dflt

theorem Ok.okD {α : Type} {m : M α} {Q : α → Prop} (h : Ok m Q) (dflt : α) : Q (okD dflt m) := by
  obtain ⟨a, rfl, ha⟩ := h
  exact ha

end SP
