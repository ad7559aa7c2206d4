import Verif.Lemmas.ParSeq
import Verif.Lemmas.ParLoop
/-!
# Workers executed one after another
-/
set_option linter.unusedSectionVars false

namespace SP
open FloatOps ConstraintGraph
variable {F : Type} [FloatOps F] {c c' : ConstraintGraph F} {B n : Nat} {jobs : UInt64} {fresh : Bool}
  {group : Nat → Nat} {α : Type}

/-- Present values of words. -/
def lastOf (mem : Nat → List Flags) : Nat → Flags := fun w => (mem w).getLastD fun _ => false

theorem lastOf_store (mem : Nat → List Flags) (w : Nat) (v : Flags) :
    lastOf (setAt mem w (mem w ++ [v])) = setAt (lastOf mem) w v := by
  funext w'
  unfold lastOf setAt
  split <;> simp

/-- Steps of one worker until it returns. -/
theorem Steps.alone {i : Nat} (hi : i < n) (p : Prog α) {P : Pool α} (hP : P.Ok n) (hp : P.prog i = p) {a : α}
    {m : Nat → Flags} (hr : p.run (lastOf P.mem) = .ok (a, m)) :
    ∃ P', Steps fresh group n P P' ∧ P'.prog = setAt P.prog i (.ret a) ∧ lastOf P'.mem = m := by
  have head : ∀ {P Q R : Pool α}, Step fresh group n P Q → Steps fresh group n Q R → Steps fresh group n P R := by
    intro P Q R h1 h2
    induction h2 with
    | refl => exact (Steps.refl P).step h1
    | step _ h ih => exact ih.step h
  induction p generalizing P with
  | ret b =>
    simp only [Prog.run, Except.ok.injEq, Prod.mk.injEq] at hr
    obtain ⟨rfl, rfl⟩ := hr
    refine ⟨P, .refl P, ?_, rfl⟩
    funext j
    unfold setAt
    split
    · rename_i h; rw [h, hp]
    · rfl
  | fail e => simp [Prog.run] at hr
  | barrier k ih => simp [Prog.run] at hr
  | load w k ih =>
    have hs := hP i w hi
    have hv : (P.mem w)[(P.mem w).length - 1]? = some (lastOf P.mem w) := by
      have hne : P.mem w ≠ [] := by intro h; rw [h] at hs; simp at hs
      unfold lastOf
      rw [List.getLastD_eq_getLast?, List.getLast?_eq_some_getLast hne, List.getElem?_eq_getElem (by omega),
        List.getLast_eq_getElem]
      rfl
    have hst : Step fresh group n P _ := .load hi hp hv (by omega) (fun _ => by omega)
    obtain ⟨P', h1, h2, h3⟩ := ih _ (hst.ok hP) (by simp [setAt]) hr
    refine ⟨P', head hst h1, ?_, h3⟩
    rw [h2]
    funext j
    simp only [setAt]
    split <;> rfl
  | store w v k ih =>
    have hst : Step fresh group n P _ := .store hi hp
    obtain ⟨P', h1, h2, h3⟩ := ih (hst.ok hP) (by simp [setAt])
      (by simp only [lastOf_store]; exact hr)
    refine ⟨P', head hst h1, ?_, h3⟩
    rw [h2]
    funext j
    simp only [setAt]
    split <;> rfl

theorem Steps.trans {P Q R : Pool α} (h1 : Steps fresh group n P Q) (h2 : Steps fresh group n Q R) :
    Steps fresh group n P R := by
  induction h2 with
  | refl => exact h1
  | step _ h ih => exact ih.step h

/-- Iterations of the round one after another in the given order. -/
def runOrder (jobs : UInt64) : List Nat → ConstraintGraph F → M (ConstraintGraph F × Bool)
  | [], c => .ok (c, false)
  | i :: l, c => do
    let (g, b) ← cspSolutionIteration c jobs (UInt64.ofNat i)
    let (g', b') ← runOrder jobs l g
    return (g', b || b')

theorem runOrder_steps (l : List Nat) (hl : l.Nodup) (hn : ∀ i ∈ l, i < n) {P : Pool Bool} (hP : P.Ok n)
    (hp : ∀ i ∈ l, P.prog i = Par.cspSolutionIteration B c jobs (UInt64.ofNat i)) {a : Array Bool}
    (hs : a.size = c.nodesAvailability.size) (hag : Agrees B (lastOf P.mem) a) {changed : Bool}
    (hr : runOrder jobs l (c.put a) = .ok (c', changed)) :
    ∃ (P' : Pool Bool) (r : Nat → Bool) (a' : Array Bool), Steps fresh group n P P' ∧
      (∀ i ∈ l, P'.prog i = .ret (r i)) ∧ (∀ i, i ∉ l → P'.prog i = P.prog i) ∧
      (changed = true ↔ ∃ i ∈ l, r i = true) ∧ a'.size = c.nodesAvailability.size ∧ Agrees B (lastOf P'.mem) a' ∧
      c' = c.put a' := by
  induction l generalizing P a c' changed with
  | nil =>
    simp only [runOrder, Except.ok.injEq, Prod.mk.injEq] at hr
    obtain ⟨rfl, rfl⟩ := hr
    exact ⟨P, fun _ => false, a, .refl P, by simp, by simp, by simp, hs, hag, rfl⟩
  | cons i l ih =>
    rw [List.nodup_cons] at hl
    have hsim := cspSolutionIteration_sim (B := B) hs hag jobs (UInt64.ofNat i)
    unfold runOrder at hr
    cases hm : cspSolutionIteration (c.put a) jobs (UInt64.ofNat i) with
    | error e => rw [hm] at hr; simp at hr
    | ok r1 =>
      obtain ⟨g, b⟩ := r1
      rw [hm, bind_ok] at hr
      rw [hm] at hsim
      obtain ⟨b1, mem1, hrun, rfl, a1, ha1, hag1, rfl⟩ := hsim
      simp only at hrun hr ha1 hag1
      cases hm2 : runOrder jobs l (c.put a1) with
      | error e => rw [hm2] at hr; simp at hr
      | ok r2 =>
        obtain ⟨g2, b2⟩ := r2
        rw [hm2, bind_ok] at hr
        simp only [pure_eq_ok, Except.ok.injEq, Prod.mk.injEq] at hr
        obtain ⟨rfl, rfl⟩ := hr
        obtain ⟨P1, hst1, hpr1, hl1⟩ := Steps.alone (fresh := fresh) (group := group) (hn i (by simp)) _ hP
          (hp i (by simp)) hrun
        have hne : ∀ j ∈ l, j ≠ i := fun j hj h => hl.1 (h ▸ hj)
        obtain ⟨P2, r, a2, hst2, hret, hrest, hch, ha2, hag2, hc2⟩ := ih hl.2 (fun j hj => hn j (by simp [hj]))
          (hst1.ok hP) (fun j hj => by rw [hpr1]; simp only [setAt, if_neg (hne j hj)]; exact hp j (by simp [hj]))
          ha1 (by rw [hl1]; exact hag1) hm2
        refine ⟨P2, setAt r i b1, a2, hst1.trans hst2, ?_, ?_, ?_, ha2, hag2, hc2⟩
        · intro j hj
          rcases List.mem_cons.1 hj with rfl | hj
          · rw [hrest _ hl.1, hpr1]; simp [setAt]
          · rw [hret j hj]; simp [setAt, hne j hj]
        · intro j hj
          simp only [List.mem_cons, not_or] at hj
          rw [hrest j hj.2, hpr1]; simp [setAt, hj.1]
        · rw [Bool.or_eq_true]
          constructor
          · rintro (h | h)
            · exact ⟨i, by simp, by simp [setAt, h]⟩
            · obtain ⟨j, hj, hrj⟩ := hch.1 h
              exact ⟨j, by simp [hj], by simp [setAt, hne j hj, hrj]⟩
          · rintro ⟨j, hj, hrj⟩
            rcases List.mem_cons.1 hj with rfl | hj
            · left; simpa [setAt] using hrj
            · right; exact hch.2 ⟨j, hj, by simpa [setAt, hne j hj] using hrj⟩

/-- Execution of the iterations one after another, in any order, is one of the possible executions of the round. -/
theorem RoundTo.of_order {l : List Nat} (hl : l.Nodup) (hn : ∀ i, i ∈ l ↔ i < n) {changed : Bool}
    (hr : runOrder jobs l c = .ok (c', changed)) : RoundTo B n jobs c c' changed := by
  have e : c.put c.nodesAvailability = c := rfl
  obtain ⟨P, r, a, h1, h2, -, h4, h5, h6, h7⟩ := runOrder_steps (B := B) (c := c) (fresh := false)
    (group := fun _ => 0) l hl (fun i hi => (hn i).1 hi) (Pool.start_ok _ _)
    (P := roundStart B jobs c) (fun _ _ => rfl) (a := c.nodesAvailability) rfl
    (by intro i _; simp [lastOf, roundStart, Pool.start, memOf, flagsOf]) (by rw [e]; exact hr)
  refine ⟨P, r, h1, fun i hi => h2 i ((hn i).2 hi), ?_, ?_⟩
  · rw [h4]
    simp only [hn]
  · rw [h7]
    unfold put withFlags
    congr 1
    apply Array.ext
    · simp [h5]
    · intro i hi1 hi2
      have := h6 i hi1
      simp only [lastOf] at this
      simp only [current, Array.getElem_ofFn]
      rw [this]
      simp [Array.getD, hi1]

theorem solveCspRound_order (c : ConstraintGraph F) :
    solveCspRound jobs c = runOrder jobs (List.range jobs.toNat) c := by
  have key : ∀ (k fuel : Nat) (g : ConstraintGraph F) (b : Bool), jobs.toNat - k ≤ fuel → k ≤ jobs.toNat →
      cfor fuel (UInt64.ofNat k) (fun i => decide (i < jobs)) inc
        (fun i (s : ConstraintGraph F × Bool) => do
          let (g, c) ← cspSolutionIteration s.1 jobs i
          return ((g, s.2 || c), false)) (g, b)
      = (runOrder jobs (List.range' k (jobs.toNat - k)) g).map fun r => (r.1, b || r.2) := by
    intro k fuel
    have hlt := toNat_lt' jobs
    induction fuel generalizing k with
    | zero =>
      intro g b h1 h2
      have : jobs.toNat - k = 0 := by omega
      rw [this]
      unfold cfor
      rw [cond_lt _ _ h2]
      simp [runOrder, Except.map, show ¬ k < jobs.toNat by omega]
    | succ fuel ih =>
      intro g b h1 h2
      rw [cfor_succ, cond_lt _ _ h2]
      by_cases hk : k < jobs.toNat
      · rw [if_pos (by simpa using hk)]
        obtain ⟨m, hm⟩ : ∃ m, jobs.toNat - k = m + 1 := ⟨jobs.toNat - k - 1, by omega⟩
        rw [hm, List.range'_succ]
        unfold runOrder
        cases cspSolutionIteration g jobs (UInt64.ofNat k) with
        | error e => rfl
        | ok r =>
          obtain ⟨g1, b1⟩ := r
          rw [bind_ok, bind_ok]
          have e := ih (k + 1) g1 (b || b1) (by omega) (by omega)
          rw [show jobs.toNat - (k + 1) = m by omega, ← inc_ofNat] at e
          refine Eq.trans e ?_
          dsimp only
          cases runOrder jobs (List.range' (k + 1) m) g1 with
          | error e => rfl
          | ok r => simp [Except.map, Bool.or_assoc]
      · rw [if_neg (by simpa using hk), show jobs.toNat - k = 0 by omega]
        simp [runOrder, Except.map]
  have := key 0 jobs.toNat c false (by omega) (by omega)
  unfold solveCspRound
  rw [show (0 : UInt64) = UInt64.ofNat 0 from rfl, this, Nat.sub_zero, ← List.range_eq_range']
  cases runOrder jobs (List.range jobs.toNat) c with
  | error e => rfl
  | ok r => simp [Except.map]

/-- The loop of `solve_csp` with the iterations of each round executed in the given order. -/
def loopInOrder (jobs : UInt64) (l : List Nat) : Nat → ConstraintGraph F → M (ConstraintGraph F)
  | 0, _ => .error .nonterm
  | fuel + 1, graph => do
    let (g, changed) ← runOrder jobs l graph
    if changed then loopInOrder jobs l fuel g else return g

/-- `solve_csp` with the iterations of each round executed in the given order. -/
def solveInOrder (jobs : UInt64) (l : List Nat) (graph : ConstraintGraph F) : M (ConstraintGraph F × Bool) := do
  let g ← loopInOrder jobs l (graph.nodesAvailability.size + 2) graph
  let r ← checkNodesLeft g
  return (g, r)

theorem solveCsp_order (c : ConstraintGraph F) : solveCsp jobs c = solveInOrder jobs (List.range jobs.toNat) c := by
  have : ∀ fuel (c : ConstraintGraph F), solveCspLoop jobs fuel c = loopInOrder jobs (List.range jobs.toNat) fuel c := by
    intro fuel
    induction fuel with
    | zero => intro c; rfl
    | succ fuel ih =>
      intro c
      unfold solveCspLoop loopInOrder
      rw [solveCspRound_order]
      simp only [ih]
  unfold solveCsp solveInOrder
  rw [this]

/-- Execution of iterations one after another in any order is possible. -/
theorem SolveTo.of_order {l : List Nat} (hl : l.Nodup) (hn : ∀ i, i ∈ l ↔ i < jobs.toNat) {solved : Bool}
    (h : solveInOrder jobs l c = .ok (c', solved)) : SolveTo B jobs c c' solved := by
  have hlo : ∀ (fuel : Nat) (c g : ConstraintGraph F), loopInOrder jobs l fuel c = .ok g → LoopTo B jobs.toNat jobs c g := by
    intro fuel
    induction fuel with
    | zero => intro c g h; simp [loopInOrder] at h
    | succ fuel ih =>
      intro c g h
      unfold loopInOrder at h
      cases hr : runOrder jobs l c with
      | error e => rw [hr] at h; simp at h
      | ok r =>
        obtain ⟨g1, b⟩ := r
        rw [hr, bind_ok] at h
        have hto := RoundTo.of_order (B := B) (n := jobs.toNat) hl hn hr
        cases b
        · simp at h
          subst h
          exact .last hto
        · simp only [if_true] at h
          exact .again hto (ih g1 g h)
  unfold solveInOrder at h
  cases hr : loopInOrder jobs l (c.nodesAvailability.size + 2) c with
  | error e => rw [hr] at h; simp at h
  | ok g =>
    rw [hr, bind_ok] at h
    cases hc : checkNodesLeft g with
    | error e => rw [hc] at h; simp at h
    | ok b =>
      rw [hc] at h
      simp only [bind_ok, pure_eq_ok, Except.ok.injEq, Prod.mk.injEq] at h
      obtain ⟨rfl, rfl⟩ := h
      exact ⟨hlo _ _ _ hr, hc⟩

/-- What the sequential model computes is one of the possible results of the concurrent one. -/
theorem SolveTo.of_seq {solved : Bool} (h : solveCsp jobs c = .ok (c', solved)) : SolveTo B jobs c c' solved :=
  .of_order List.nodup_range (by simp) (solveCsp_order (jobs := jobs) c ▸ h)

end SP
