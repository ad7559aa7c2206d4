import Verif.Lemmas.ParLogic
import Mathlib.Logic.Hydra
/-!
# Executions of workers are finite and do not get stuck
-/
set_option linter.unusedSectionVars false

namespace SP
open FloatOps
variable {F : Type} [FloatOps F] {c : ConstraintGraph F} {B n : Nat} {fresh : Bool} {group : Nat → Nat} {α β : Type}

/-- `Next q p`: the program `q` is what is left of `p` after its first access. -/
inductive Prog.Next : Prog α → Prog α → Prop where
  | load (w : Nat) (k : Flags → Prog α) (v : Flags) : Next (k v) (.load w k)
  | store (w : Nat) (v : Flags) (k : Prog α) : Next k (.store w v k)
  | barrier (k : Prog α) : Next k (.barrier k)

theorem Prog.next_wf : WellFounded (Prog.Next (α := α)) := by
  constructor
  intro p
  induction p with
  | ret a => exact ⟨_, fun _ h => nomatch h⟩
  | fail e => exact ⟨_, fun _ h => nomatch h⟩
  | load w k ih =>
    refine ⟨_, fun q h => ?_⟩
    cases h with
    | load _ _ v => exact ih v
  | store w v k ih =>
    refine ⟨_, fun q h => ?_⟩
    cases h
    exact ih
  | barrier k ih =>
    refine ⟨_, fun q h => ?_⟩
    cases h
    exact ih

theorem Step.next {P Q : Pool α} (h : Step fresh group n P Q) :
    (∀ i, i < n → Q.prog i = P.prog i ∨ Prog.Next (Q.prog i) (P.prog i)) ∧
    ∃ i, i < n ∧ Prog.Next (Q.prog i) (P.prog i) := by
  cases h with
  | @load i w t k v hi hp hv ht hf =>
    have hx : Prog.Next (setAt P.prog i (k v) i) (P.prog i) := by
      rw [hp]; simp only [setAt, if_true]; exact .load w k v
    refine ⟨fun j _ => ?_, i, hi, hx⟩
    by_cases hj : j = i
    · subst hj; exact .inr hx
    · left; simp [setAt, hj]
  | @store i w k v hi hp =>
    have hx : Prog.Next (setAt P.prog i k i) (P.prog i) := by
      rw [hp]; simp only [setAt, if_true]; exact .store w v k
    refine ⟨fun j _ => ?_, i, hi, hx⟩
    by_cases hj : j = i
    · subst hj; exact .inr hx
    · left; simp [setAt, hj]
  | @barrier γ k seen hne hp =>
    have hx : ∀ j, j < n → group j = γ →
        Prog.Next (if j < n ∧ group j = γ then k j else P.prog j) (P.prog j) := by
      intro j hj hg
      rw [hp j hj hg, if_pos ⟨hj, hg⟩]
      exact .barrier _
    refine ⟨fun j hj => ?_, ?_⟩
    · by_cases hg : group j = γ
      · exact .inr (hx j hj hg)
      · left; simp [hg]
    · obtain ⟨i, hi, hg⟩ := hne
      exact ⟨i, hi, hx i hi hg⟩

theorem cut_of_next (r : α → α → Prop) (f g : Nat → α) (n : Nat) (h : ∀ i, i < n → g i = f i ∨ r (g i) (f i)) :
    (Multiset.range n).map g = (Multiset.range n).map f ∨
    Relation.TransGen (Relation.CutExpand r) ((Multiset.range n).map g) ((Multiset.range n).map f) := by
  induction n with
  | zero => left; simp
  | succ n ih =>
    rw [Multiset.range_succ, Multiset.map_cons, Multiset.map_cons, ← Multiset.singleton_add, ← Multiset.singleton_add]
    have h1 : ({g n} : Multiset α) = {f n} ∨
        ∀ s, Relation.CutExpand r ({g n} + s) ({f n} + s) := by
      rcases h n (by omega) with h | h
      · left; rw [h]
      · right; exact Relation.cutExpand_single_add h
    rcases ih (fun i hi => h i (by omega)) with h2 | h2
    · rw [h2]
      rcases h1 with h1 | h1
      · rw [h1]; exact .inl rfl
      · exact .inr (.single (h1 _))
    · right
      have h3 : Relation.TransGen (Relation.CutExpand r) ({f n} + (Multiset.range n).map g)
          ({f n} + (Multiset.range n).map f) :=
        h2.lift _ fun a b hab => (Relation.cutExpand_add_left {f n}).2 hab
      rcases h1 with h1 | h1
      · rw [h1]; exact h3
      · exact (Relation.TransGen.single (h1 _)).trans h3

/-- There are no infinite executions. -/
theorem step_wf : WellFounded fun Q P : Pool α => Step fresh group n P Q := by
  have hwf : WellFounded (Relation.TransGen (Relation.CutExpand (Prog.Next (α := α)))) :=
    (Prog.next_wf.cutExpand).transGen
  refine Subrelation.wf (r := fun Q P : Pool α =>
    Relation.TransGen (Relation.CutExpand (Prog.Next (α := α)))
      ((Multiset.range n).map Q.prog) ((Multiset.range n).map P.prog)) ?_ (InvImage.wf _ hwf)
  intro Q P h
  obtain ⟨h1, i, hi, h2⟩ := h.next
  obtain ⟨m, rfl⟩ : ∃ m, n = m + 1 := ⟨n - 1, by omega⟩
  -- split off the worker that certainly makes a step
  have e : ∀ f : Nat → Prog α, (Multiset.range (m + 1)).map f
      = {f i} + (((Multiset.range (m + 1)).erase i).map f) := by
    intro f
    rw [Multiset.singleton_add, ← Multiset.map_cons, Multiset.cons_erase (Multiset.mem_range.2 hi)]
  rcases cut_of_next Prog.Next P.prog (setAt Q.prog i (P.prog i)) (m + 1) (fun j hj => by
    by_cases hji : j = i
    · left; simp [setAt, hji]
    · simp only [setAt, if_neg hji]; exact h1 j hj) with h3 | h3
  · have h4 : Relation.CutExpand Prog.Next ((Multiset.range (m + 1)).map Q.prog)
        ((Multiset.range (m + 1)).map (setAt Q.prog i (P.prog i))) := by
      rw [e, e]
      have : ((Multiset.range (m + 1)).erase i).map (setAt Q.prog i (P.prog i))
          = ((Multiset.range (m + 1)).erase i).map Q.prog := by
        refine Multiset.map_congr rfl fun j hj => ?_
        have : j ≠ i := ((Multiset.nodup_range _).mem_erase_iff.1 hj).1
        simp [setAt, this]
      rw [this]
      refine Relation.cutExpand_single_add ?_ _
      simp only [setAt, if_true]
      exact h2
    rw [h3] at h4
    exact .single h4
  · have h4 : Relation.CutExpand Prog.Next ((Multiset.range (m + 1)).map Q.prog)
        ((Multiset.range (m + 1)).map (setAt Q.prog i (P.prog i))) := by
      rw [e, e]
      have : ((Multiset.range (m + 1)).erase i).map (setAt Q.prog i (P.prog i))
          = ((Multiset.range (m + 1)).erase i).map Q.prog := by
        refine Multiset.map_congr rfl fun j hj => ?_
        have : j ≠ i := ((Multiset.nodup_range _).mem_erase_iff.1 hj).1
        simp [setAt, this]
      rw [this]
      refine Relation.cutExpand_single_add ?_ _
      simp only [setAt, if_true]
      exact h2
    exact (Relation.TransGen.single h4).trans h3

/-! ## Programs without barriers -/

/-- The program never waits. -/
def Prog.NoBar : Prog α → Prop
  | .ret _ => True
  | .fail _ => True
  | .load _ k => ∀ v, (k v).NoBar
  | .store _ _ k => k.NoBar
  | .barrier _ => False

theorem Prog.NoBar.bind {p : Prog α} {f : α → Prog β} (h : p.NoBar) (hf : ∀ a, (f a).NoBar) : (p.bind f).NoBar := by
  induction p with
  | ret a => exact hf a
  | fail e => trivial
  | load w k ih => exact fun v => ih v (h v)
  | store w v k ih => exact ih h
  | barrier k ih => exact h.elim

theorem Prog.NoBar.lift (m : M α) : (Prog.lift m).NoBar := by cases m <;> trivial

theorem pfor_noBar {ι σ : Type} {fuel : Nat} {i : ι} {cond : ι → Bool} {step : ι → ι}
    {body : ι → σ → Prog (σ × Bool)} {s : σ} (h : ∀ i s, (body i s).NoBar) :
    (pfor fuel i cond step body s).NoBar := by
  induction fuel generalizing i s with
  | zero => unfold pfor; split <;> trivial
  | succ fuel ih =>
    unfold pfor
    split
    · refine (h i s).bind fun r => ?_
      split
      · trivial
      · exact ih
    · trivial

theorem Prog.NoBar.next {p q : Prog α} (h : p.NoBar) (hn : Prog.Next q p) : q.NoBar := by
  cases hn with
  | load w k v => exact h v
  | store w v k => exact h
  | barrier k => exact h.elim

theorem rdFlag_noBar (size : Nat) (i : UInt64) : (Par.rdFlag B size i).NoBar := by
  unfold Par.rdFlag; split
  · exact fun v => trivial
  · trivial

theorem wrFlag_noBar (size : Nat) (i : UInt64) (b : Bool) : (Par.wrFlag B size i b).NoBar := by
  unfold Par.wrFlag; split
  · exact fun v => trivial
  · trivial

theorem isEdgeAvailable_noBar (edge : Edge) : (Par.isEdgeAvailable B c edge).NoBar := by
  unfold Par.isEdgeAvailable
  refine (Prog.NoBar.lift _).bind fun p => (Prog.NoBar.lift _).bind fun l => ?_
  split
  · trivial
  refine (rdFlag_noBar _ _).bind fun b => ?_
  split
  · trivial
  refine (rdFlag_noBar _ _).bind fun b => ?_
  split <;> trivial

theorem shouldRemoveNode_noBar (node : Node) : (Par.shouldRemoveNode B c node).NoBar := by
  unfold Par.shouldRemoveNode
  refine (rdFlag_noBar _ _).bind fun b => ?_
  split
  · trivial
  refine pfor_noBar fun k r => ?_
  split
  · trivial
  refine Prog.NoBar.bind (pfor_noBar fun d r => ?_) fun b => ?_
  · exact (isEdgeAvailable_noBar _).bind fun b => by split <;> trivial
  · split <;> trivial

theorem cspProcessPixel_noBar (pixel : Pixel) : (Par.cspProcessPixel B c pixel).NoBar := by
  unfold Par.cspProcessPixel
  refine pfor_noBar fun d r => (shouldRemoveNode_noBar _).bind fun b => ?_
  split
  · exact (wrFlag_noBar _ _ _).bind fun _ => trivial
  · trivial

theorem pixelAvailable_noBar (pixel : Pixel) : (Par.pixelAvailable B c pixel).NoBar :=
  pfor_noBar fun d r => (rdFlag_noBar _ _).bind fun b => by split <;> trivial

theorem checkNodesLeft_noBar : (Par.checkNodesLeft B c).NoBar :=
  pfor_noBar fun d r => (rdFlag_noBar _ _).bind fun b => by split <;> trivial

theorem cspSolutionIteration_noBar (jobs job : UInt64) : (Par.cspSolutionIteration B c jobs job).NoBar := by
  unfold Par.cspSolutionIteration
  split
  · trivial
  refine Prog.NoBar.bind (pfor_noBar fun y r => ?_) fun b => ?_
  · refine Prog.NoBar.bind (pfor_noBar fun x r => ?_) fun b => ?_
    · refine (cspProcessPixel_noBar _).bind fun _ => Prog.NoBar.bind ?_ fun b => ?_
      · exact pfor_noBar fun d r => (rdFlag_noBar _ _).bind fun b => by split <;> trivial
      · split <;> trivial
    · split <;> trivial
  · split
    · refine Prog.NoBar.bind ?_ fun b => ?_
      · exact pfor_noBar fun d r => (rdFlag_noBar _ _).bind fun b => by split <;> trivial
      · split
        · trivial
        · refine Prog.NoBar.bind ?_ fun b => trivial
          exact pfor_noBar fun d r => (wrFlag_noBar _ _ _).bind fun b => trivial
    · trivial

theorem Steps.noBar {P Q : Pool α} (h : Steps fresh group n P Q) (hP : ∀ i, i < n → (P.prog i).NoBar) :
    ∀ i, i < n → (Q.prog i).NoBar := by
  induction h with
  | refl => exact hP
  | step h h' ih =>
    intro i hi
    rcases h'.next.1 i hi with h1 | h1
    · rw [h1]; exact ih i hi
    · exact (ih i hi).next h1

/-- If nobody waits or has failed then someone can make a step or all have returned. -/
theorem Pool.progress {P : Pool α} (hP : P.Ok n) (hb : ∀ i, i < n → (P.prog i).NoBar)
    (hf : ∀ i er, i < n → P.prog i ≠ .fail er) :
    (∀ i, i < n → ∃ a, P.prog i = .ret a) ∨ ∃ Q, Step fresh group n P Q := by
  by_cases h : ∀ i, i < n → ∃ a, P.prog i = .ret a
  · exact .inl h
  · right
    obtain ⟨i, hi, hne⟩ : ∃ i, i < n ∧ ¬ ∃ a, P.prog i = .ret a :=
      Classical.byContradiction fun hh => h fun i hi => Classical.byContradiction fun h2 => hh ⟨i, hi, h2⟩
    cases hp : P.prog i with
    | ret a => exact absurd ⟨a, hp⟩ hne
    | fail e => exact absurd hp (hf i e hi)
    | load w k =>
      have hs := hP i w hi
      exact ⟨_, .load hi hp (List.getElem?_eq_getElem (show (P.mem w).length - 1 < (P.mem w).length by omega))
        (by omega) (fun _ => by omega)⟩
    | store w v k => exact ⟨_, .store hi hp⟩
    | barrier k =>
      have := hb i hi
      rw [hp] at this
      exact this.elim

end SP
