import Verif.Lemmas.GpuLaunch
/-!
# Outcomes of launches
-/
set_option linter.unusedSectionVars false

namespace SP
open FloatOps ConstraintGraph Gpu
variable {F : Type} [FloatOps F] {kernel : Kernel F} {cl : Bool} {d d' : Device F} {group : Nat → Nat}
  {allowed : (Nat → Nat) → Prop}

/-- The program after a barrier. -/
def Prog.next {α : Type} : Prog α → Prog α
  | .barrier k => k
  | p => p

/-- If all items of a group wait then they may go on. -/
theorem Step.meet {α : Type} {fresh : Bool} {n γ : Nat} {P : Pool α} (hne : ∃ i, i < n ∧ group i = γ)
    (hall : ∀ j, j < n → group j = γ → ∃ k, P.prog j = .barrier k) :
    ∃ Q, Step fresh group n P Q ∧ Q.mem = P.mem ∧
      Q.prog = fun i => if i < n ∧ group i = γ then (P.prog i).next else P.prog i := by
  obtain ⟨i, hi, hγ⟩ := hne
  -- the largest numbers seen in the group
  let mates := (List.range n).filter fun j => group j = γ
  let top : Nat → Nat := fun w => mates.foldr (fun j m => max (P.seen j w) m) 0
  have hmem : ∀ j, j ∈ mates ↔ j < n ∧ group j = γ := by
    intro j; simp [mates]
  have hle : ∀ w j, j ∈ mates → P.seen j w ≤ top w := by
    intro w
    suffices ∀ l : List Nat, ∀ j ∈ l, P.seen j w ≤ l.foldr (fun j m => max (P.seen j w) m) 0 from this mates
    intro l
    induction l with
    | nil => intro j hj; cases hj
    | cons a l ih =>
      intro j hj
      rcases List.mem_cons.1 hj with rfl | h
      · exact Nat.le_max_left _ _
      · exact Nat.le_trans (ih j h) (Nat.le_max_right _ _)
  have hex : ∀ w, ∃ j, j ∈ mates ∧ top w = P.seen j w := by
    intro w
    suffices ∀ l : List Nat, l ≠ [] → ∃ j, j ∈ l ∧ l.foldr (fun j m => max (P.seen j w) m) 0 = P.seen j w by
      refine this mates fun h => ?_
      have := (hmem i).2 ⟨hi, hγ⟩
      rw [h] at this
      cases this
    intro l
    induction l with
    | nil => intro h; exact absurd rfl h
    | cons a l ih =>
      intro _
      by_cases hl : l = []
      · subst hl; exact ⟨a, by simp, by simp⟩
      · obtain ⟨j, hj, he⟩ := ih hl
        rcases Nat.le_total (P.seen a w) (P.seen j w) with h | h
        · exact ⟨j, by simp [hj], by simp only [List.foldr_cons, he]; exact Nat.max_eq_right h⟩
        · exact ⟨a, by simp, by simp only [List.foldr_cons, he]; exact Nat.max_eq_left h⟩
  refine ⟨_, Step.barrier (γ := γ) (k := fun j => (P.prog j).next)
    (seen := fun j => if j < n ∧ group j = γ then top else P.seen j) ⟨i, hi, hγ⟩ ?_ ?_ ?_ ?_, rfl, rfl⟩
  · intro j hj hgj
    obtain ⟨k, hk⟩ := hall j hj hgj
    simp only [Prog.next, hk]
  · intro a b w ha hga hb hgb
    simp only [ha, hga, and_self, if_true]
    exact hle w b ((hmem b).2 ⟨hb, hgb⟩)
  · intro a w ha hga
    obtain ⟨j, hj, he⟩ := hex w
    obtain ⟨h1, h2⟩ := (hmem j).1 hj
    exact ⟨j, h1, h2, by simp only [ha, hga, and_self, if_true]; exact he⟩
  · intro a ha
    simp only [if_neg ha]

/-- Work items that cannot go on: all of them have returned, or some of them miss each other at a barrier. -/
theorem stuck_cases {n : Nat} {P : Pool Unit} (hok : P.Ok n) (hno : ∀ Q, ¬ Step false group n P Q)
    (hf : ∀ i e, i < n → P.prog i ≠ .fail e) : (∀ i, i < n → P.prog i = .ret ()) ∨ Missed group n P := by
  have shape : ∀ i, i < n → P.prog i = .ret () ∨ ∃ k, P.prog i = .barrier k := by
    intro i hi
    cases hp : P.prog i with
    | ret a => exact .inl rfl
    | fail e => exact absurd hp (hf i e hi)
    | load w k =>
      have h1 := hok i w hi
      exact absurd (Step.load hi hp (List.getElem?_eq_getElem (show (P.mem w).length - 1 < (P.mem w).length by omega))
        (by omega) (fun _ => by omega)) (hno _)
    | store w v k => exact absurd (Step.store hi hp) (hno _)
    | barrier k => exact .inr ⟨k, rfl⟩
  by_cases hr : ∀ i, i < n → P.prog i = .ret ()
  · exact .inl hr
  · obtain ⟨i, hi, hne⟩ : ∃ i, i < n ∧ P.prog i ≠ .ret () :=
      Classical.byContradiction fun hh => hr fun i hi => Classical.byContradiction fun h2 => hh ⟨i, hi, h2⟩
    obtain ⟨k, hk⟩ := (shape i hi).resolve_left hne
    by_cases hall : ∀ j, j < n → group j = group i → ∃ k, P.prog j = .barrier k
    · exfalso
      obtain ⟨Q, hQ, -, -⟩ := Step.meet (fresh := false) (group := group) (n := n) (P := P) ⟨i, hi, rfl⟩
        (fun j hj hg => hall j hj hg)
      exact hno Q hQ
    · obtain ⟨j, hj, hgj, hnb⟩ : ∃ j, j < n ∧ group j = group i ∧ ¬ ∃ k, P.prog j = .barrier k :=
        Classical.byContradiction fun hh => hall fun j hj hg => Classical.byContradiction fun h2 => hh ⟨j, hj, hg, h2⟩
      exact .inr ⟨i, j, k, hi, hj, hgj.symm, hk, (shape j hj).resolve_right hnb⟩

/-- A launch ends in one of three ways whatever the kernel. -/
theorem LaunchOutcome.exists (kernel : Kernel F) (d : Device F) (hg : allowed group) :
    ∃ m, LaunchOutcome kernel allowed d m := by
  have hend : ∀ P : Pool Unit, Steps false group d.items (d.launch kernel) P →
      ∃ Q, Steps false group d.items (d.launch kernel) Q ∧ ∀ R, ¬ Step false group d.items Q R := by
    intro P
    induction P using (step_wf (α := Unit) (fresh := false) (group := group) (n := d.items)).induction with
    | _ P ih =>
      intro hP
      by_cases h : ∃ Q, Step false group d.items P Q
      · obtain ⟨Q, hQ⟩ := h
        exact ih Q hQ (hP.step hQ)
      · exact ⟨P, hP, fun R hR => h ⟨R, hR⟩⟩
  obtain ⟨P, hs, hno⟩ := hend _ (.refl _)
  by_cases hf : ∃ i e, i < d.items ∧ P.prog i = .fail e
  · obtain ⟨i, e, hi, he⟩ := hf
    exact ⟨.error e, group, P, hg, hs, .inl ⟨i, hi, he⟩⟩
  rcases stuck_cases (hs.ok (Pool.start_ok _ _)) hno (fun i e hi he => hf ⟨i, e, hi, he⟩) with hr | hm
  · exact ⟨.ok _, group, hg, P, hs, hr, rfl⟩
  · exact ⟨.error .ub, group, P, hg, hs, .inr ⟨rfl, hm⟩⟩

/-- What may go wrong in a launch: only that work items miss each other at a barrier. -/
theorem LaunchOutcome.valid (hk : Covers kernel cl) (hc : d.graph.Valid) {m : M (Device F)}
    (h : LaunchOutcome kernel allowed d m) :
    (∃ d' group, m = .ok d' ∧ allowed group ∧ LaunchTo kernel group d d') ∨
    (m = .error .ub ∧ ∃ group P, allowed group ∧ Steps false group d.items (d.launch kernel) P ∧ Missed group d.items P) := by
  cases m with
  | ok d' =>
    obtain ⟨group, hg, ht⟩ := h
    exact .inl ⟨d', group, rfl, hg, ht⟩
  | error e =>
    obtain ⟨group, P, hg, hs, h⟩ := h
    rcases h with ⟨i, hi, hp⟩ | ⟨rfl, hm⟩
    · exact absurd hp (launch_rounds hk hc hs i e hi)
    · exact .inr ⟨rfl, group, P, hg, hs, hm⟩

/-- Work items that are alone in their groups miss nobody. -/
theorem not_missed {P : Pool Unit} {n : Nat} (hg : ∀ i j, i < n → j < n → group i = group j → i = j) : ¬ Missed group n P := by
  rintro ⟨i, j, k, hi, hj, he, h1, h2⟩
  obtain rfl := hg i j hi hj he
  rw [h1] at h2
  cases h2

end SP
