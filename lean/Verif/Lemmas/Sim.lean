import Verif.Lemmas.Core
/-!
# Two runs related step by step
-/
namespace SP

/-- Both fail in the same way, or both return and the results are related. -/
def Sim {α β : Type} (R : α → β → Prop) (m : M α) (n : M β) : Prop :=
  match m, n with
  | .ok a, .ok b => R a b
  | .error e, .error e' => e = e'
  | _, _ => False

theorem Sim.ok {α β : Type} {R : α → β → Prop} {a : α} {b : β} (h : R a b) : Sim R (.ok a) (.ok b) := h

theorem Sim.error {α β : Type} {R : α → β → Prop} (e : Err) : Sim R (.error e : M α) (.error e : M β) := rfl

theorem Sim.same {α : Type} (m : M α) : Sim Eq m m := by
  cases m <;> rfl

theorem Sim.bind {α β α' β' : Type} {R : α → β → Prop} {S : α' → β' → Prop} {m : M α} {n : M β}
    {f : α → M α'} {g : β → M β'} (h : Sim R m n) (hfg : ∀ a b, R a b → Sim S (f a) (g b)) :
    Sim S (m >>= f) (n >>= g) := by
  cases m <;> cases n
  · exact h
  · exact h.elim
  · exact h.elim
  · exact hfg _ _ h

theorem Sim.bind_same {γ α' β' : Type} {S : α' → β' → Prop} {m : M γ}
    {f : γ → M α'} {g : γ → M β'} (hfg : ∀ a, Sim S (f a) (g a)) :
    Sim S (m >>= f) (m >>= g) := by
  refine Sim.bind (Sim.same m) ?_
  rintro a _ rfl
  exact hfg a

theorem Sim.mono {α β : Type} {R S : α → β → Prop} {m : M α} {n : M β} (h : Sim R m n) (hRS : ∀ a b, R a b → S a b) :
    Sim S m n := by
  cases m <;> cases n
  · exact h
  · exact h.elim
  · exact h.elim
  · exact hRS _ _ h

/-- Two loops with the same counter; `R` relates the states inside of the loops and `Q` after them. -/
theorem cfor_sim {ι σ τ : Type} {R Q : σ → τ → Prop} {cond : ι → Bool} {step : ι → ι}
    {f : ι → σ → M (σ × Bool)} {g : ι → τ → M (τ × Bool)}
    (hb : ∀ i s t, R s t → Sim (fun a b => a.2 = b.2 ∧ if a.2 then Q a.1 b.1 else R a.1 b.1) (f i s) (g i t))
    (hQ : ∀ s t, R s t → Q s t)
    (fuel : Nat) (i : ι) (s : σ) (t : τ) (h : R s t) :
    Sim Q (cfor fuel i cond step f s) (cfor fuel i cond step g t) := by
  induction fuel generalizing i s t with
  | zero =>
    unfold cfor
    split
    · exact Sim.error _
    · exact hQ _ _ h
  | succ fuel ih =>
    unfold cfor
    split
    · have := hb i s t h
      cases hf : f i s with
      | error e =>
        cases hg : g i t with
        | error e' => rw [hf, hg] at this; exact this
        | ok b => rw [hf, hg] at this; exact this.elim
      | ok a =>
        cases hg : g i t with
        | error e' => rw [hf, hg] at this; exact this.elim
        | ok b =>
          rw [hf, hg] at this
          obtain ⟨a, ba⟩ := a
          obtain ⟨b, bb⟩ := b
          obtain ⟨h1, h2⟩ := this
          simp only at h1 h2
          subst h1
          cases ba
          · exact ih _ _ _ (by simpa using h2)
          · exact (by simpa using h2 : Q a b)
    · exact hQ _ _ h

theorem Sim.of_ok {α β : Type} {R : α → β → Prop} {m : M α} {b : β} (h : Ok m fun a => R a b) : Sim R m (.ok b) := by
  obtain ⟨a, rfl, ha⟩ := h
  exact ha

theorem Sim.ok_right {α β : Type} {R : α → β → Prop} {m : M α} {b : β} (h : Sim R m (.ok b)) : Ok m fun a => R a b := by
  cases m with
  | error e => exact h.elim
  | ok a => exact Ok.pure h

theorem Sim.error_right {α β : Type} {R : α → β → Prop} {m : M α} {e : Err} (h : Sim R m (.error e : M β)) :
    m = .error e := by
  cases m with
  | error e' => rw [show e' = e from h]
  | ok a => exact h.elim

end SP
