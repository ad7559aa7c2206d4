import Verif.Lemmas.ParMap
import Verif.Lemmas.ParTerm
/-!
# Concrete executions
-/
set_option linter.unusedSectionVars false

namespace SP
open FloatOps ConstraintGraph
variable {F : Type} [FloatOps F] {c c' : ConstraintGraph F} {B n : Nat} {jobs : UInt64} {fresh : Bool}
  {group : Nat → Nat} {α : Type}

/-! ## Executions given by turns of workers -/

/-- At most `k` steps of one worker with nothing in between; loads give present values. -/
def Prog.take : Nat → Prog α → (Nat → Flags) → Prog α × (Nat → Flags)
  | 0, p, m => (p, m)
  | k + 1, .load w f, m => Prog.take k (f (m w)) m
  | k + 1, .store w v p, m => Prog.take k p (setAt m w v)
  | _ + 1, p, m => (p, m)

/-- Turns of workers: `(i, k)` means that the worker `i` makes at most `k` steps. -/
def play : List (Nat × Nat) → (Nat → Prog α) → (Nat → Flags) → (Nat → Prog α) × (Nat → Flags)
  | [], p, m => (p, m)
  | (i, k) :: l, p, m => play l (setAt p i ((p i).take k m).1) ((p i).take k m).2

theorem Steps.cons {P Q R : Pool α} (h1 : Step fresh group n P Q) (h2 : Steps fresh group n Q R) :
    Steps fresh group n P R := by
  induction h2 with
  | refl => exact (Steps.refl P).step h1
  | step _ h ih => exact ih.step h

theorem Steps.take {i : Nat} (hi : i < n) (k : Nat) {P : Pool α} (hP : P.Ok n) :
    ∃ P', Steps fresh group n P P' ∧ P'.prog = setAt P.prog i ((P.prog i).take k (lastOf P.mem)).1 ∧
      lastOf P'.mem = ((P.prog i).take k (lastOf P.mem)).2 := by
  have stay : ∀ {P : Pool α}, P.prog = setAt P.prog i (P.prog i) := by
    intro P; funext j; unfold setAt; split
    · rename_i h; rw [h]
    · rfl
  induction k generalizing P with
  | zero => exact ⟨P, .refl P, stay, rfl⟩
  | succ k ih =>
    cases hp : P.prog i with
    | ret a => exact ⟨P, .refl P, by simp only [Prog.take]; rw [← hp]; exact stay, rfl⟩
    | fail e => exact ⟨P, .refl P, by simp only [Prog.take]; rw [← hp]; exact stay, rfl⟩
    | barrier p => exact ⟨P, .refl P, by simp only [Prog.take]; rw [← hp]; exact stay, rfl⟩
    | load w f =>
      have hs := hP i w hi
      have hv : (P.mem w)[(P.mem w).length - 1]? = some (lastOf P.mem w) := by
        have hne : P.mem w ≠ [] := by intro h; rw [h] at hs; simp at hs
        unfold lastOf
        rw [List.getLastD_eq_getLast?, List.getLast?_eq_some_getLast hne, List.getElem?_eq_getElem (by omega),
          List.getLast_eq_getElem]
        rfl
      have hst : Step fresh group n P _ := .load hi hp hv (by omega) (fun _ => by omega)
      obtain ⟨P', h1, h2, h3⟩ := ih (hst.ok hP)
      simp only [setAt, if_true] at h2 h3
      refine ⟨P', .cons hst h1, ?_, h3⟩
      rw [h2]
      funext j
      simp only [setAt, Prog.take]
      split <;> rfl
    | store w v p =>
      have hst : Step fresh group n P _ := .store hi hp
      obtain ⟨P', h1, h2, h3⟩ := ih (hst.ok hP)
      simp only [setAt_self, lastOf_store] at h2 h3
      refine ⟨P', .cons hst h1, ?_, h3⟩
      rw [h2]
      funext j
      simp only [setAt, Prog.take]
      split <;> rfl

theorem Steps.play (l : List (Nat × Nat)) (hl : ∀ t ∈ l, t.1 < n) {P : Pool α} (hP : P.Ok n) :
    ∃ P', Steps fresh group n P P' ∧ P'.prog = (play l P.prog (lastOf P.mem)).1 ∧
      lastOf P'.mem = (SP.play l P.prog (lastOf P.mem)).2 := by
  induction l generalizing P with
  | nil => exact ⟨P, .refl P, rfl, rfl⟩
  | cons t l ih =>
    obtain ⟨i, k⟩ := t
    obtain ⟨P1, h1, h2, h3⟩ := Steps.take (fresh := fresh) (group := group) (hl (i, k) (by simp)) k hP
    obtain ⟨P2, h4, h5, h6⟩ := ih (fun t ht => hl t (by simp [ht])) (h1.ok hP)
    refine ⟨P2, h1.trans h4, ?_, ?_⟩
    · rw [h5, h2, h3]; rfl
    · rw [h6, h2, h3]; rfl

/-- The returned value. -/
def Prog.value : Prog α → Option α
  | .ret a => some a
  | _ => none

theorem Prog.eq_of_value {p : Prog α} {a : α} (h : p.value = some a) : p = .ret a := by
  cases p <;> simp_all [Prog.value]

/-- A round executed by given turns, and its results. -/
theorem RoundTo.of_play (l : List (Nat × Nat)) (hl : ∀ t ∈ l, t.1 < n) (r : Nat → Bool)
    (hr : ∀ i, i < n → ((play l (roundStart B jobs c).prog fun _ => flagsOf c.nodesAvailability).1 i).value = some (r i))
    {changed : Bool} (hch : changed = true ↔ ∃ i, i < n ∧ r i = true)
    (hc' : c' = c.withFlags fun i => (play l (roundStart B jobs c).prog fun _ => flagsOf c.nodesAvailability).2 (i / B) i) :
    RoundTo B n jobs c c' changed := by
  obtain ⟨P, h1, h2, h3⟩ := Steps.play (fresh := false) (group := fun _ => 0) l hl (Pool.start_ok (n := n)
    (flagsOf c.nodesAvailability) (roundStart B jobs c).prog)
  refine ⟨P, r, h1, fun i hi => ?_, hch, ?_⟩
  · rw [h2]
    exact Prog.eq_of_value (hr i hi)
  · rw [hc']
    congr 1
    funext i
    have := congrFun h3 (i / B)
    unfold current
    unfold lastOf at this
    rw [this]
    rfl

/-! ## Each call of `solve_csp` has some outcome -/

theorem round_exists (B n : Nat) (jobs : UInt64) (c : ConstraintGraph F) :
    (∃ c' b, RoundTo B n jobs c c' b) ∨
    ∃ P i e, Steps false (fun _ => 0) n (roundStart B jobs c) P ∧ i < n ∧ P.prog i = .fail e := by
  have hend : ∀ P : Pool Bool, Steps false (fun _ => 0) n (roundStart B jobs c) P →
      ∃ Q, Steps false (fun _ => 0) n (roundStart B jobs c) Q ∧ ∀ R, ¬ Step false (fun _ => 0) n Q R := by
    intro P
    refine (step_wf (fresh := false) (group := fun _ => 0) (n := n)).induction
      (C := fun P : Pool Bool => Steps false (fun _ => 0) n (roundStart B jobs c) P →
        ∃ Q, Steps false (fun _ => 0) n (roundStart B jobs c) Q ∧ ∀ R, ¬ Step false (fun _ => 0) n Q R) P ?_
    intro P ih hP
    by_cases h : ∃ R, Step false (fun _ => 0) n P R
    · obtain ⟨R, hR⟩ := h
      exact ih R hR (hP.step hR)
    · exact ⟨P, hP, fun R hR => h ⟨R, hR⟩⟩
  obtain ⟨Q, hQ, hno⟩ := hend _ (.refl _)
  by_cases hf : ∃ i e, i < n ∧ Q.prog i = .fail e
  · obtain ⟨i, e, hi, he⟩ := hf
    exact .inr ⟨Q, i, e, hQ, hi, he⟩
  · left
    have hret : ∀ i, i < n → ∃ a, Q.prog i = .ret a := by
      rcases Pool.progress (fresh := false) (group := fun _ => 0) (hQ.ok (Pool.start_ok _ _))
        (hQ.noBar fun i _ => cspSolutionIteration_noBar _ _) (fun i e hi he => hf ⟨i, e, hi, he⟩) with h | ⟨R, hR⟩
      · exact h
      · exact absurd hR (hno R)
    have hret' : ∀ i, ∃ a, i < n → Q.prog i = .ret a := by
      intro i
      by_cases hi : i < n
      · obtain ⟨a, ha⟩ := hret i hi
        exact ⟨a, fun _ => ha⟩
      · exact ⟨false, fun h => absurd h hi⟩
    choose r hr using hret'
    classical
    exact ⟨_, decide (∃ i, i < n ∧ r i = true), Q, r, hQ, hr, by simp, rfl⟩

theorem RoundsTo.loop {c'' : ConstraintGraph F} (h : RoundsTo B n jobs c c') (h' : RoundTo B n jobs c' c'' false) :
    LoopTo B n jobs c c'' := by
  have key : ∀ {a b d : ConstraintGraph F}, RoundsTo B n jobs a b → LoopTo B n jobs b d → LoopTo B n jobs a d := by
    intro a b d h1
    induction h1 with
    | refl => exact id
    | again _ hr ih => exact fun hl => ih (.again hr hl)
  exact key h (.last h')

/-- The semantics leaves no call without an outcome. -/
theorem SolveOutcome.exists (B : Nat) (jobs : UInt64) (c : ConstraintGraph F) : ∃ m, SolveOutcome B jobs c m := by
  by_cases hf : ∃ c' P i e, RoundsTo B jobs.toNat jobs c c' ∧
      Steps false (fun _ => 0) jobs.toNat (roundStart B jobs c') P ∧ i < jobs.toNat ∧ P.prog i = .fail e
  · obtain ⟨c', P, i, e, h1, h2, h3, h4⟩ := hf
    exact ⟨.error e, .inr (.inl ⟨c', P, i, h1, h2, h3, h4⟩)⟩
  by_cases hl : ∃ c', LoopTo B jobs.toNat jobs c c'
  · obtain ⟨c', hc'⟩ := hl
    cases hb : checkNodesLeft c' with
    | error e => exact ⟨.error e, .inr (.inr ⟨c', hc', hb⟩)⟩
    | ok b => exact ⟨.ok (c', b), hc', hb⟩
  · have hnext : ∀ a : {d : ConstraintGraph F // RoundsTo B jobs.toNat jobs c d}, ∃ b : {d : ConstraintGraph F //
        RoundsTo B jobs.toNat jobs c d}, RoundTo B jobs.toNat jobs a.1 b.1 true := by
      rintro ⟨d, hd⟩
      rcases round_exists B jobs.toNat jobs d with ⟨d', b, h⟩ | ⟨P, i, e, h1, h2, h3⟩
      · cases b
        · exact absurd ⟨d', hd.loop h⟩ hl
        · exact ⟨⟨d', hd.again h⟩, h⟩
      · exact absurd ⟨d, P, i, e, hd, h1, h2, h3⟩ hf
    choose next hnext using hnext
    let f : Nat → {d : ConstraintGraph F // RoundsTo B jobs.toNat jobs c d} :=
      fun k => Nat.rec ⟨c, .refl c⟩ (fun _ a => next a) k
    exact ⟨.error .nonterm, .inl ⟨rfl, fun k => (f k).1, rfl, fun k => hnext (f k)⟩⟩

/-! ## Solvers for concrete computations -/

/-- `m` is the same as `m'`, or nothing is known because of an error from `E`. -/
def Refines (E : Err → Prop) {β : Type} (m m' : M β) : Prop := (∃ e, E e ∧ m' = .error e) ∨ m = m'

section
variable {E : Err → Prop}

theorem Refines.refl {β : Type} (m : M β) : Refines E m m := .inr rfl

theorem Refines.bind {β γ : Type} {m m' : M β} {f f' : β → M γ} (h : Refines E m m') (hf : ∀ a, Refines E (f a) (f' a)) :
    Refines E (m >>= f) (m' >>= f') := by
  rcases h with ⟨e, he, rfl⟩ | rfl
  · exact .inl ⟨e, he, rfl⟩
  · cases m with
    | error e => exact .inr rfl
    | ok a => exact hf a

theorem Refines.cfor {σ : Type} {fuel : Nat} {i : UInt64} {cond : UInt64 → Bool} {step : UInt64 → UInt64}
    {body body' : UInt64 → σ → M (σ × Bool)} {s : σ} (h : ∀ i s, Refines E (body i s) (body' i s)) :
    Refines E (SP.cfor fuel i cond step body s) (SP.cfor fuel i cond step body' s) := by
  induction fuel generalizing i s with
  | zero => exact .refl _
  | succ fuel ih =>
    rw [cfor_succ, cfor_succ]
    split
    · refine (h i s).bind fun r => ?_
      split
      · exact .refl _
      · exact ih
    · exact .refl _

theorem Refines.ite {β : Type} {p : Prop} [Decidable p] {a a' b b' : M β} (ha : Refines E a a') (hb : Refines E b b') :
    Refines E (if p then a else b) (if p then a' else b') := by
  split
  · exact ha
  · exact hb

section
variable {solve solve' : Solver F} (hs : ∀ n c, Refines E (solve n c) (solve' n c))
include hs

theorem refines_thresholdSearch {p : LowestPenalties F} {g : DisparityGraph F} {arr : Array F} (fuel : Nat)
    (lo hi : UInt64) (calls : Nat) : Refines E (Par.thresholdSearch solve p g arr fuel lo hi calls)
      (Par.thresholdSearch solve' p g arr fuel lo hi calls) := by
  induction fuel generalizing lo hi calls with
  | zero => exact .refl _
  | succ fuel ih =>
    unfold Par.thresholdSearch
    refine .ite (.bind (.refl _) fun t => .bind (.refl _) fun c => .bind (hs _ _) fun r => ?_) (.refl _)
    exact .ite (ih _ _ _) (ih _ _ _)

theorem refines_minimalThreshold (g : DisparityGraph F) :
    Refines E (Par.minimalThreshold solve g) (Par.minimalThreshold solve' g) := by
  unfold Par.minimalThreshold
  refine .bind (.refl _) fun p => .bind (.refl _) fun l => .bind ?_ fun r => .refl _
  unfold Par.calculateMinimalConsistentThreshold
  exact .bind (refines_thresholdSearch hs _ _ _ _) fun r => .refl _

theorem refines_solvedGraph (g : DisparityGraph F) : Refines E (Par.solvedGraph solve g) (Par.solvedGraph solve' g) := by
  unfold Par.solvedGraph
  refine .bind (refines_minimalThreshold hs g) fun r => .bind (.refl _) fun c => .bind (hs _ _) fun r => ?_
  exact .refl _

theorem refines_findLabeling (calls : Nat) (c : ConstraintGraph F) :
    Refines E (Par.findLabeling solve calls c) (Par.findLabeling solve' calls c) := by
  unfold Par.findLabeling
  refine .cfor fun x s => .bind (.cfor fun y s => ?_) fun s => .refl _
  refine .bind (.refl _) fun r => ?_
  exact .ite (.refl _) (.bind (hs _ _) fun r => .refl _)

theorem refines_labeledMap {label : Nat → ConstraintGraph F → M (ConstraintGraph F × Bool)} (g : DisparityGraph F) :
    Refines E (Par.labeledMap solve label g) (Par.labeledMap solve' label g) := by
  unfold Par.labeledMap
  exact .bind (refines_solvedGraph hs g) fun r => .refl _

theorem refines_disparityMap (g : DisparityGraph F) : Refines E (Par.disparityMap solve g) (Par.disparityMap solve' g) := by
  unfold Par.disparityMap
  refine .bind (refines_solvedGraph hs g) fun r => .bind (refines_findLabeling hs _ _) fun r => ?_
  exact .refl _

end

end

/-- A solver that executes iterations one after another, in the order given for each call; where this gives no result, nothing
is known. -/
def orderSolver (jobs : UInt64) (order : Nat → List Nat) : Solver F := fun n c =>
  match solveInOrder jobs (order n) c with
  | .ok r => .ok r
  | .error _ => .error .ub

/-- There is a possible solver that gives these results. -/
theorem Solver.Possible.exists (B : Nat) (jobs : UInt64) (order : Nat → List Nat)
    (ho : ∀ n, (order n).Nodup ∧ ∀ i, i ∈ order n ↔ i < jobs.toNat) :
    ∃ solve : Solver F, solve.Possible B jobs ∧ ∀ n c, Refines (· = .ub) (solve n c) (orderSolver jobs order n c) := by
  have key : ∀ n (c : ConstraintGraph F), ∃ m, SolveOutcome B jobs c m ∧ Refines (· = .ub) m (orderSolver jobs order n c) := by
    intro n c
    cases h : solveInOrder jobs (order n) c with
    | ok r => exact ⟨.ok r, SolveTo.of_order (ho n).1 (ho n).2 h, .inr (by simp [orderSolver, h])⟩
    | error e =>
      obtain ⟨m, hm⟩ := SolveOutcome.exists B jobs c
      exact ⟨m, hm, .inl ⟨_, rfl, by simp [orderSolver, h]⟩⟩
  choose solve hsolve using key
  exact ⟨solve, fun n c => (hsolve n c).1, fun n c => (hsolve n c).2⟩

/-- There is a possible solver that gives the results of the sequential model. -/
theorem Solver.Possible.seq (B : Nat) (jobs : UInt64) :
    ∃ solve : Solver F, solve.Possible B jobs ∧ ∀ n c, Refines (fun _ => True) (solve n c) (solveCsp jobs c) := by
  have key : ∀ c : ConstraintGraph F, ∃ m, SolveOutcome B jobs c m ∧ Refines (fun _ => True) m (solveCsp jobs c) := by
    intro c
    cases h : solveCsp jobs c with
    | ok r => exact ⟨.ok r, SolveTo.of_seq h, .inr rfl⟩
    | error e =>
      obtain ⟨m, hm⟩ := SolveOutcome.exists B jobs c
      exact ⟨m, hm, .inl ⟨e, trivial, rfl⟩⟩
  choose solve hsolve using key
  exact ⟨fun _ c => solve c, fun _ c => (hsolve c).1, fun _ c => (hsolve c).2⟩

end SP
