import Verif.Model.Parallel
import Verif.Lemmas.Core
/-!
# Reasoning about programs of workers

What a worker may rely on, what it has to guarantee, and soundness with respect to all executions of a pool.
-/
namespace SP

/-- Views: for each word the number of the latest value seen. -/
abbrev View := Nat → Nat

def View.le (s s' : View) : Prop := ∀ w, s w ≤ s' w

theorem View.le_refl (s : View) : s.le s := fun _ => Nat.le_refl _
theorem View.le_trans {s s' s'' : View} (h : s.le s') (h' : s'.le s'') : s.le s'' :=
  fun w => Nat.le_trans (h w) (h' w)
theorem View.le_set {s : View} {w t : Nat} (h : s w ≤ t) : s.le (setAt s w t) := by
  intro w'
  unfold setAt
  split
  · rename_i e; subst e; exact h
  · exact Nat.le_refl _

@[simp] theorem setAt_self {β : Type} (f : Nat → β) (i : Nat) (b : β) : setAt f i b i = b := by simp [setAt]
theorem setAt_ne {β : Type} (f : Nat → β) {i j : Nat} (b : β) (h : j ≠ i) : setAt f i b j = f j := by
  simp [setAt, h]

/-- What surrounds a worker. -/
structure Env where
  /-- with the view, a load of the word may give this value, being the value of the given number -/
  R : View → Nat → Nat → Flags → Prop
  /-- a store of the value to the word may get this number -/
  St : Nat → Nat → Flags → Prop
  /-- what has to be proved when a value is stored in a word -/
  G : Nat → Flags → Prop
  /-- allowed ends other than return -/
  E : Err → Prop

/-- Whatever the surroundings do, the program does what it has to and returns only what satisfies `Q`. -/
def Wp (e : Env) {α : Type} : Prog α → View → (α → View → Prop) → Prop
  | .ret a, s, Q => Q a s
  | .fail er, _, _ => e.E er
  | .load w k, s, Q => ∀ t v, s w ≤ t → e.R s w t v → Wp e (k v) (setAt s w t) Q
  | .store w v k, s, Q => e.G w v ∧ ∀ t, s w ≤ t → e.St w t v → Wp e k (setAt s w t) Q
  | .barrier k, s, Q => ∀ s', s.le s' → Wp e k s' Q

variable {α β : Type} {e : Env}

@[simp] theorem prog_bind_eq (p : Prog α) (f : α → Prog β) : (p >>= f) = p.bind f := rfl
@[simp] theorem prog_pure_eq (a : α) : (pure a : Prog α) = .ret a := rfl
@[simp] theorem prog_ret_bind (a : α) (f : α → Prog β) : (Prog.ret a).bind f = f a := rfl
@[simp] theorem prog_fail_bind (er : Err) (f : α → Prog β) : (Prog.fail er : Prog α).bind f = .fail er := rfl
@[simp] theorem prog_load_bind (w : Nat) (k : Flags → Prog α) (f : α → Prog β) :
    (Prog.load w k).bind f = .load w fun v => (k v).bind f := rfl
@[simp] theorem prog_store_bind (w : Nat) (v : Flags) (k : Prog α) (f : α → Prog β) :
    (Prog.store w v k).bind f = .store w v (k.bind f) := rfl
@[simp] theorem prog_lift_ok (a : α) : Prog.lift (.ok a : M α) = .ret a := rfl
@[simp] theorem wp_ret {a : α} {s : View} {Q : α → View → Prop} : Wp e (.ret a) s Q ↔ Q a s := Iff.rfl

theorem Wp.mono {p : Prog α} {s : View} {Q Q' : α → View → Prop} (h : Wp e p s Q)
    (hq : ∀ a s', s.le s' → Q a s' → Q' a s') : Wp e p s Q' := by
  induction p generalizing s with
  | ret a => exact hq a s (View.le_refl s) h
  | fail er => exact h
  | load w k ih =>
    intro t v ht hv
    exact ih v (h t v ht hv) fun a s' hs => hq a s' (View.le_trans (View.le_set ht) hs)
  | store w v k ih =>
    refine ⟨h.1, fun t ht hv => ?_⟩
    exact ih (h.2 t ht hv) fun a s' hs => hq a s' (View.le_trans (View.le_set ht) hs)
  | barrier k ih => exact fun s' hs => ih (h s' hs) fun a s'' hs' => hq a s'' (View.le_trans hs hs')

theorem Wp.bind {p : Prog α} {f : α → Prog β} {s : View} {Q : β → View → Prop}
    (h : Wp e p s fun a s' => Wp e (f a) s' Q) : Wp e (p.bind f) s Q := by
  induction p generalizing s with
  | ret a => exact h
  | fail er => exact h
  | load w k ih => exact fun t v ht hv => ih v (h t v ht hv)
  | store w v k ih => exact ⟨h.1, fun t ht hv => ih (h.2 t ht hv)⟩
  | barrier k ih => exact fun s' hs => ih (h s' hs)

theorem Wp.seq {p : Prog α} {f : α → Prog β} {s : View} {P : α → View → Prop} {Q : β → View → Prop}
    (h : Wp e p s P) (hf : ∀ a s', s.le s' → P a s' → Wp e (f a) s' Q) : Wp e (p.bind f) s Q :=
  Wp.bind (h.mono hf)

/-- Rule for loops whose counter takes the values `f lo, …, f n`. -/
theorem pfor_seq {ι σ : Type} {fuel : Nat} {i : ι} {cond : ι → Bool} {step : ι → ι}
    {body : ι → σ → Prog (σ × Bool)} {a : σ} {s : View}
    (f : Nat → ι) (lo n : Nat) (P : Nat → σ → View → Prop) {Q : σ → View → Prop}
    (hi : i = f lo) (hlo : lo ≤ n) (hfuel : n - lo ≤ fuel)
    (hf : ∀ k, lo ≤ k → k < n → step (f k) = f (k + 1))
    (hcond : ∀ k, lo ≤ k → k ≤ n → cond (f k) = decide (k < n))
    (h0 : P lo a s)
    (hstep : ∀ k a s', lo ≤ k → k < n → s.le s' → P k a s' →
      Wp e (body (f k) a) s' (fun r s'' => if r.2 then Q r.1 s'' else P (k + 1) r.1 s''))
    (hend : ∀ a s', s.le s' → P n a s' → Q a s') :
    Wp e (pfor fuel i cond step body a) s Q := by
  suffices H : ∀ s', s.le s' → P lo a s' → Wp e (pfor fuel i cond step body a) s' Q from
    H s (View.le_refl s) h0
  clear h0
  induction fuel generalizing lo i a with
  | zero =>
    intro s' hs h0
    subst hi
    have hl : lo = n := by omega
    subst hl
    have := hcond lo (Nat.le_refl _) (Nat.le_refl _)
    simp at this
    simp only [pfor, this]
    exact hend a s' hs h0
  | succ fuel ih =>
    intro s' hs h0
    subst hi
    have hc := hcond lo (Nat.le_refl _) hlo
    by_cases hl : lo < n
    · simp [hl] at hc
      simp only [pfor, hc, if_true]
      refine Wp.seq (hstep lo a s' (Nat.le_refl _) hl hs h0) ?_
      rintro ⟨a', b⟩ s'' hs' hq
      cases b
      · simp only [Bool.false_eq_true, if_false] at hq ⊢
        exact ih (lo + 1) (hf lo (Nat.le_refl _) hl) (by omega) (by omega)
          (fun k h1 h2 => hf k (by omega) h2) (fun k h1 h2 => hcond k (by omega) h2)
          (fun k a s' h1 h2 h3 => hstep k a s' (by omega) h2 h3) s'' (View.le_trans hs hs') hq
      · simpa using hq
    · have hl' : lo = n := by omega
      subst hl'
      simp at hc
      simp only [pfor, hc]
      exact hend a s' hs h0

/-- Rule for loops counting up by one from `lo` while the counter is less than `n`. -/
theorem pfor_ok {σ : Type} {fuel : Nat} {i : UInt64} {cond : UInt64 → Bool}
    {body : UInt64 → σ → Prog (σ × Bool)} {a : σ} {s : View}
    (lo n : Nat) (P : Nat → σ → View → Prop) {Q : σ → View → Prop}
    (hi : i = UInt64.ofNat lo) (hlo : lo ≤ n) (hfuel : n - lo ≤ fuel)
    (hcond : ∀ k, lo ≤ k → k ≤ n → cond (UInt64.ofNat k) = decide (k < n))
    (h0 : P lo a s)
    (hstep : ∀ k a s', lo ≤ k → k < n → s.le s' → P k a s' →
      Wp e (body (UInt64.ofNat k) a) s' (fun r s'' => if r.2 then Q r.1 s'' else P (k + 1) r.1 s''))
    (hend : ∀ a s', s.le s' → P n a s' → Q a s') :
    Wp e (pfor fuel i cond inc body a) s Q :=
  pfor_seq UInt64.ofNat lo n P hi hlo hfuel (fun k _ _ => inc_ofNat k) hcond h0 hstep hend

/-! ## Executions -/

variable {fresh : Bool} {group : Nat → Nat} {n : Nat}

/-- Views are views of values that exist. -/
def Pool.Ok (n : Nat) (P : Pool α) : Prop := ∀ i w, i < n → P.seen i w < (P.mem w).length

theorem Pool.start_ok (m : Flags) (prog : Nat → Prog α) : (Pool.start m prog).Ok n := by
  intro i w _; simp [Pool.start, memOf]

theorem Step.ok {P P' : Pool α} (h : Step fresh group n P P') (hP : P.Ok n) : P'.Ok n := by
  intro j w' hj
  cases h with
  | @load i w t k v hi hpi hv ht hf =>
    by_cases hji : j = i
    · subst hji
      by_cases hw' : w' = w
      · subst hw'
        simp only [setAt_self]
        exact (List.getElem?_eq_some_iff.1 hv).1
      · simpa [setAt_ne _ _ hw'] using hP j w' hj
    · simpa [setAt_ne _ _ hji] using hP j w' hj
  | @store i w k v hi hpi =>
    have := hP j w' hj
    by_cases hji : j = i
    · subst hji
      by_cases hw' : w' = w
      · subst hw'
        simp
      · simpa [setAt_ne _ _ hw'] using this
    · by_cases hw' : w' = w
      · subst hw'
        simp only [setAt_self, setAt_ne _ _ hji, List.length_append, List.length_singleton]
        omega
      · simpa [setAt_ne _ _ hji, setAt_ne _ _ hw'] using this
  | @barrier γ k seen hne hpi hle hex hout =>
    by_cases hg : group j = γ
    · obtain ⟨i, hi, _, he⟩ := hex j w' hj hg
      simp only [he]
      exact hP i w' hi
    · simp only [hout j fun h => hg h.2]
      exact hP j w' hj

theorem Steps.ok {P P' : Pool α} (h : Steps fresh group n P P') (hP : P.Ok n) : P'.Ok n := by
  induction h with
  | refl => exact hP
  | step h h' ih => exact h'.ok ih

theorem Step.mem_grows {P P' : Pool α} (h : Step fresh group n P P') (w : Nat) :
    ∃ l, P'.mem w = P.mem w ++ l := by
  cases h with
  | load => exact ⟨[], by simp⟩
  | @store i w' k v hi hpi =>
    by_cases hw : w = w'
    · subst hw; exact ⟨[v], by simp⟩
    · exact ⟨[], by simp [setAt_ne _ _ hw]⟩
  | barrier => exact ⟨[], by simp⟩

theorem Steps.mem_grows {P P' : Pool α} (h : Steps fresh group n P P') (w : Nat) :
    ∃ l, P'.mem w = P.mem w ++ l := by
  induction h with
  | refl => exact ⟨[], by simp⟩
  | step h h' ih =>
    obtain ⟨l, hl⟩ := ih
    obtain ⟨l', hl'⟩ := h'.mem_grows w
    exact ⟨l ++ l', by rw [hl', hl, List.append_assoc]⟩

/-- If what workers guarantee is what they rely on, they do and return what they have to in all executions: the values stored are as
guaranteed, and each worker is as described. -/
theorem Steps.sound' {P P' : Pool α} {Q : Nat → α → View → Prop} (h : Steps fresh group n P P') (hP : P.Ok n)
    (hR : ∀ s w t v, (P.mem w)[t]? = some v → e.R s w t v)
    (hG : ∀ s w t v, (P.mem w).length ≤ t → e.G w v → e.R s w t v) (hSt : ∀ w t v, (P.mem w).length ≤ t → e.St w t v)
    (hw : ∀ i, i < n → Wp e (P.prog i) (P.seen i) (Q i)) :
    (∀ w, ∃ l, P'.mem w = P.mem w ++ l ∧ ∀ v ∈ l, e.G w v) ∧
    (∀ i, i < n → Wp e (P'.prog i) (P'.seen i) (Q i)) := by
  induction h with
  | refl => exact ⟨fun w => ⟨[], by simp, by simp⟩, hw⟩
  | @step P' P'' h h' ih =>
    obtain ⟨hm, hp⟩ := ih
    have hok := h.ok hP
    have hR' : ∀ s w t v, (P'.mem w)[t]? = some v → e.R s w t v := by
      intro s w t v ht
      obtain ⟨l, hl, hg⟩ := hm w
      rw [hl, List.getElem?_append] at ht
      split at ht
      · exact hR s w t v ht
      · exact hG s w t v (by omega) (hg v (List.mem_of_getElem? ht))
    cases h' with
    | @load i w t k v hi hpi hv ht hf =>
      refine ⟨hm, ?_⟩
      intro j hj
      by_cases hji : j = i
      · subst hji
        have := hp j hj
        rw [hpi] at this
        simpa using this t v ht (hR' _ w t v hv)
      · simpa [setAt_ne _ _ hji] using hp j hj
    | @store i w k v hi hpi =>
      have hpi' := hp i hi
      rw [hpi] at hpi'
      refine ⟨?_, ?_⟩
      · intro w'
        obtain ⟨l, hl, hg⟩ := hm w'
        by_cases hw' : w' = w
        · subst hw'
          refine ⟨l ++ [v], by simp [hl], ?_⟩
          intro v' hv'
          rcases List.mem_append.1 hv' with h | h
          · exact hg v' h
          · simp at h; subst h; exact hpi'.1
        · exact ⟨l, by simpa [setAt_ne _ _ hw'] using hl, hg⟩
      · intro j hj
        by_cases hji : j = i
        · subst hji
          simp only [setAt_self]
          obtain ⟨l, hl, -⟩ := hm w
          exact hpi'.2 _ (Nat.le_of_lt (hok j w hj)) (hSt _ _ _ (by rw [hl]; simp))
        · simpa [setAt_ne _ _ hji] using hp j hj
    | @barrier γ k seen hne hpi hle hex hout =>
      refine ⟨hm, ?_⟩
      intro j hj
      have hpj := hp j hj
      by_cases hg : group j = γ
      · rw [hpi j hj hg] at hpj
        simp only [hj, hg, and_self, if_true]
        exact hpj _ fun w => hle j j w hj hg hj hg
      · simpa [hg, hout j fun h => hg h.2] using hpj

theorem Steps.sound {P P' : Pool α} {Q : Nat → α → View → Prop} (h : Steps fresh group n P P') (hP : P.Ok n)
    (hR : ∀ s w t v, (P.mem w)[t]? = some v → e.R s w t v)
    (hG : ∀ s w t v, e.G w v → e.R s w t v) (hSt : ∀ w t v, e.St w t v)
    (hw : ∀ i, i < n → Wp e (P.prog i) (P.seen i) (Q i)) :
    (∀ w, ∃ l, P'.mem w = P.mem w ++ l ∧ ∀ v ∈ l, e.G w v) ∧
    (∀ i, i < n → Wp e (P'.prog i) (P'.seen i) (Q i)) :=
  h.sound' hP hR (fun s w t v _ => hG s w t v) (fun w t v _ => hSt w t v) hw

/-- Whose stores the values of words are, and what a worker may rely on when the values of all words in the whole execution are
known: a load gives one of these values, own ones only after they are stored. Own values are as guaranteed. -/
theorem Steps.local' {P P' : Pool α} (h : Steps fresh group n P P') (hP : P.Ok n) :
    ∃ own : Nat → Nat → Nat,
      (∀ w t, (P.mem w).length ≤ t → t < (P'.mem w).length → own w t < n ∧ t ≤ P'.seen (own w t) w) ∧
      ∀ i, i < n → ∀ (e : Env) (Q : α → View → Prop),
        (∀ s w t v, (P'.mem w)[t]? = some v → ((P.mem w).length ≤ t → own w t = i → t ≤ s w) → e.R s w t v) →
        (∀ w t v, (P'.mem w)[t]? = some v → (P.mem w).length ≤ t → own w t = i → e.St w t v) →
        Wp e (P.prog i) (P.seen i) Q → Wp e (P'.prog i) (P'.seen i) Q ∧
          ∀ w t v, (P'.mem w)[t]? = some v → (P.mem w).length ≤ t → own w t = i → e.G w v := by
  induction h with
  | refl => exact ⟨fun _ _ => 0, fun w t h1 h2 => by omega, fun _ _ _ _ _ _ h => ⟨h, fun w t v hv h1 => by
      have := (List.getElem?_eq_some_iff.1 hv).1
      omega⟩⟩
  | @step P' P'' h h' ih =>
    obtain ⟨own, ho, hl⟩ := ih
    have hok := h.ok hP
    have hgr := fun w => h.mem_grows w
    cases h' with
    | @load i w t k v hi hpi hv ht hf =>
      refine ⟨own, ?_, ?_⟩
      · intro w' t' h1 h2
        obtain ⟨a, b⟩ := ho w' t' h1 h2
        refine ⟨a, ?_⟩
        by_cases hi' : own w' t' = i
        · simp only [hi', setAt_self]
          by_cases hw' : w' = w
          · subst hw'
            simp only [setAt_self]
            rw [hi'] at b
            omega
          · rw [setAt_ne _ _ hw', ← hi']; exact b
        · simp only [setAt_ne _ _ hi']; exact b
      · intro j hj e Q hR hSt hw
        obtain ⟨this, hG⟩ := hl j hj e Q hR hSt hw
        refine ⟨?_, hG⟩
        by_cases hji : j = i
        · subst hji
          rw [hpi] at this
          simp only [setAt_self]
          refine this t v ht (hR _ _ _ _ hv ?_)
          intro h1 h2
          have := (ho w t h1 (List.getElem?_eq_some_iff.1 hv).1).2
          rwa [h2] at this
        · simpa [setAt_ne _ _ hji] using this
    | @store i w k v hi hpi =>
      let own' : Nat → Nat → Nat := fun w' t' => if w' = w ∧ t' = (P'.mem w).length then i else own w' t'
      have hown : ∀ w' t', t' < (P'.mem w').length → own' w' t' = own w' t' := by
        intro w' t' hlt
        simp only [own']
        rw [if_neg]
        rintro ⟨rfl, rfl⟩
        omega
      have hnew : own' w (P'.mem w).length = i := by simp [own']
      have hmem : ∀ w' t', t' < (P'.mem w').length →
          (setAt P'.mem w (P'.mem w ++ [v]) w')[t']? = (P'.mem w')[t']? := by
        intro w' t' hlt
        by_cases hw' : w' = w
        · subst hw'
          simp only [setAt_self]
          rw [List.getElem?_append_left hlt]
        · rw [setAt_ne _ _ hw']
      refine ⟨own', ?_, ?_⟩
      · intro w' t' h1 h2
        by_cases hlt : t' < (P'.mem w').length
        · rw [hown w' t' hlt]
          obtain ⟨a, b⟩ := ho w' t' h1 hlt
          refine ⟨a, ?_⟩
          by_cases hi' : own w' t' = i
          · simp only [hi', setAt_self]
            by_cases hw' : w' = w
            · subst hw'
              simp only [setAt_self]
              omega
            · rw [setAt_ne _ _ hw', ← hi']; exact b
          · simp only [setAt_ne _ _ hi']; exact b
        · by_cases hw' : w' = w
          · subst hw'
            simp only [setAt_self, List.length_append, List.length_singleton] at h2
            have : t' = (P'.mem w').length := by omega
            subst this
            rw [hnew]
            refine ⟨hi, ?_⟩
            simp
          · simp only [setAt_ne _ _ hw'] at h2
            omega
      · intro j hj e Q hR hSt hw
        obtain ⟨this, hG⟩ := hl j hj e Q
          (fun s w' t' v' hv hown' => by
            have hlt := (List.getElem?_eq_some_iff.1 hv).1
            refine hR s w' t' v' ?_ ?_
            · simp only [hmem w' t' hlt]; exact hv
            · rw [hown w' t' hlt]; exact hown')
          (fun w' t' v' hv h1 h2 => by
            have hlt := (List.getElem?_eq_some_iff.1 hv).1
            refine hSt w' t' v' ?_ h1 ?_
            · simp only [hmem w' t' hlt]; exact hv
            · rw [hown w' t' hlt]; exact h2) hw
        refine ⟨?_, fun w' t' v' hv h1 h2 => ?_⟩
        rotate_left
        · by_cases hlt : t' < (P'.mem w').length
          · simp only [hmem w' t' hlt] at hv
            rw [hown w' t' hlt] at h2
            exact hG w' t' v' hv h1 h2
          · have hl' := (List.getElem?_eq_some_iff.1 hv).1
            by_cases hw' : w' = w
            · subst hw'
              simp only [setAt_self, List.length_append, List.length_singleton] at hl'
              have : t' = (P'.mem w').length := by omega
              subst this
              rw [hnew] at h2
              subst h2
              rw [hpi] at this
              simp only [setAt_self] at hv
              simp at hv
              rw [← hv]
              exact this.1
            · simp only [setAt_ne _ _ hw'] at hl'
              omega
        by_cases hji : j = i
        · subst hji
          rw [hpi] at this
          simp only [setAt_self]
          refine this.2 _ (Nat.le_of_lt (hok j w hj)) (hSt _ _ _ ?_ ?_ hnew)
          · simp
          · obtain ⟨l, hl⟩ := hgr w
            rw [hl]; simp
        · simpa [setAt_ne _ _ hji] using this
    | @barrier γ k seen hne hpi hle hex hout =>
      refine ⟨own, ?_, ?_⟩
      · intro w t h1 h2
        obtain ⟨a, b⟩ := ho w t h1 h2
        refine ⟨a, ?_⟩
        by_cases hg : group (own w t) = γ
        · exact Nat.le_trans b (hle _ _ w a hg a hg)
        · simpa [hout _ fun h => hg h.2] using b
      · intro j hj e Q hR hSt hw
        obtain ⟨hpj, hG⟩ := hl j hj e Q hR hSt hw
        refine ⟨?_, hG⟩
        by_cases hg : group j = γ
        · rw [hpi j hj hg] at hpj
          simp only [hj, hg, and_self, if_true]
          exact hpj _ fun w => hle j j w hj hg hj hg
        · simpa [hg, hout j fun h => hg h.2] using hpj

theorem Steps.local {P P' : Pool α} (h : Steps fresh group n P P') (hP : P.Ok n) :
    ∃ own : Nat → Nat → Nat,
      (∀ w t, (P.mem w).length ≤ t → t < (P'.mem w).length → own w t < n ∧ t ≤ P'.seen (own w t) w) ∧
      ∀ i, i < n → ∀ (e : Env) (Q : α → View → Prop),
        (∀ s w t v, (P'.mem w)[t]? = some v → ((P.mem w).length ≤ t → own w t = i → t ≤ s w) → e.R s w t v) →
        (∀ w t v, (P'.mem w)[t]? = some v → (P.mem w).length ≤ t → own w t = i → e.St w t v) →
        Wp e (P.prog i) (P.seen i) Q → Wp e (P'.prog i) (P'.seen i) Q := by
  obtain ⟨own, h1, h2⟩ := h.local' hP
  exact ⟨own, h1, fun i hi e Q a b c => (h2 i hi e Q a b c).1⟩

end SP
