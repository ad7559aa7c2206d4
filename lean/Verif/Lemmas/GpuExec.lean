import Verif.Lemmas.GpuHost
import Verif.Lemmas.ParExec
/-!
# Concrete executions of kernels
-/
set_option linter.unusedSectionVars false

namespace SP
open FloatOps ConstraintGraph Gpu
variable {F : Type} [FloatOps F] {n : Nat} {fresh : Bool} {group : Nat → Nat} {α : Type}

/-- A turn of an execution. -/
inductive Turn where
  /-- the item makes at most so many steps -/
  | run (i k : Nat)
  /-- items of the group pass a barrier if all of them wait for it -/
  | meet (γ : Nat)

def Prog.waits : Prog α → Bool
  | .barrier _ => true
  | _ => false

theorem Prog.of_waits {p : Prog α} (h : p.waits = true) : ∃ k, p = .barrier k := by
  cases p <;> simp_all [Prog.waits]

/-- The group is ready to pass a barrier. -/
def ready (n : Nat) (group : Nat → Nat) (γ : Nat) (p : Nat → Prog α) : Bool :=
  (List.range n).any (fun i => group i == γ) && (List.range n).all fun i => !(group i == γ) || (p i).waits

/-- Execution by turns. Loads give present values. -/
def playTurns (n : Nat) (group : Nat → Nat) : List Turn → (Nat → Prog α) → (Nat → Flags) → (Nat → Prog α) × (Nat → Flags)
  | [], p, m => (p, m)
  | .run i k :: l, p, m => playTurns n group l (setAt p i ((p i).take k m).1) ((p i).take k m).2
  | .meet γ :: l, p, m =>
    playTurns n group l
      (if ready n group γ p then fun i => if i < n ∧ group i = γ then (p i).next else p i else p) m

/-- Items in turns exist. -/
def Turn.good (n : Nat) : Turn → Bool
  | .run i _ => decide (i < n)
  | .meet _ => true

theorem Steps.playTurns (l : List Turn) (hl : l.all (Turn.good n) = true) {P : Pool α} (hP : P.Ok n) :
    ∃ P', Steps fresh group n P P' ∧ P'.prog = (playTurns n group l P.prog (lastOf P.mem)).1 ∧
      lastOf P'.mem = (SP.playTurns n group l P.prog (lastOf P.mem)).2 := by
  induction l generalizing P with
  | nil => exact ⟨P, .refl P, rfl, rfl⟩
  | cons t l ih =>
    simp only [List.all_cons, Bool.and_eq_true] at hl
    cases t with
    | run i k =>
      obtain ⟨P1, h1, h2, h3⟩ := Steps.take (fresh := fresh) (group := group) (i := i) (by simpa [Turn.good] using hl.1) k hP
      obtain ⟨P2, h4, h5, h6⟩ := ih hl.2 (h1.ok hP)
      refine ⟨P2, h1.trans h4, ?_, ?_⟩
      · rw [h5, h2, h3]; rfl
      · rw [h6, h2, h3]; rfl
    | meet γ =>
      by_cases hr : ready n group γ P.prog = true
      · unfold SP.playTurns
        rw [if_pos hr]
        unfold ready at hr
        simp only [Bool.and_eq_true, List.any_eq_true, List.all_eq_true, List.mem_range, beq_iff_eq, Bool.or_eq_true,
          Bool.not_eq_true', beq_eq_false_iff_ne, ne_eq] at hr
        obtain ⟨Q, hQ, hm, hpr⟩ := Step.meet (fresh := fresh) (group := group) (γ := γ) (n := n) (P := P) hr.1
          (fun j hj hg => Prog.of_waits ((hr.2 j hj).resolve_left fun h => h hg))
        obtain ⟨P2, h4, h5, h6⟩ := ih hl.2 (hQ.ok hP)
        refine ⟨P2, .cons hQ h4, ?_, ?_⟩
        · rw [h5, hpr, hm]
        · rw [h6, hpr, hm]
      · unfold SP.playTurns
        rw [if_neg hr]
        exact ih hl.2 hP

/-- The pool after the turns of a launch. -/
def Device.play (kernel : Kernel F) (group : Nat → Nat) (l : List Turn) (d : Device F) : (Nat → Prog Unit) × (Nat → Flags) :=
  playTurns d.items group l (d.launch kernel).prog fun _ => d.flags

/-- All items have returned. -/
def allReturned (n : Nat) (p : Nat → Prog Unit) : Bool := (List.range n).all fun i => (p i).value == some ()

theorem LaunchTo.of_play {kernel : Kernel F} {d : Device F} (l : List Turn) (hl : l.all (Turn.good d.items) = true)
    (hr : allReturned d.items (d.play kernel group l).1 = true) :
    LaunchTo kernel group d (d.withFlags fun i => (d.play kernel group l).2 i i) := by
  obtain ⟨P, h1, h2, h3⟩ := Steps.playTurns (fresh := false) (group := group) l hl (Pool.start_ok (n := d.items)
    d.flags (d.launch kernel).prog)
  refine ⟨P, h1, fun i hi => ?_, ?_⟩
  · rw [h2]
    unfold allReturned at hr
    simp only [List.all_eq_true, List.mem_range, beq_iff_eq] at hr
    exact Prog.eq_of_value (hr i hi)
  · congr 1
    funext i
    have := congrFun h3 i
    unfold current
    unfold lastOf at this
    rw [Nat.div_one, this]
    rfl

/-- One item waits and another one of the same group has returned. -/
def missedIn (n : Nat) (group : Nat → Nat) (p : Nat → Prog Unit) (i j : Nat) : Bool :=
  decide (i < n) && decide (j < n) && (group i == group j) && (p i).waits && ((p j).value == some ())

theorem missed_of_play {kernel : Kernel F} {d : Device F} (l : List Turn) (hl : l.all (Turn.good d.items) = true) (i j : Nat)
    (hm : missedIn d.items group (d.play kernel group l).1 i j = true) :
    ∃ P, Steps false group d.items (d.launch kernel) P ∧ Missed group d.items P := by
  obtain ⟨P, h1, h2, -⟩ := Steps.playTurns (fresh := false) (group := group) l hl (Pool.start_ok (n := d.items)
    d.flags (d.launch kernel).prog)
  refine ⟨P, h1, ?_⟩
  unfold missedIn at hm
  simp only [Bool.and_eq_true, decide_eq_true_eq, beq_iff_eq] at hm
  obtain ⟨⟨⟨⟨a1, a2⟩, a3⟩, a4⟩, a5⟩ := hm
  obtain ⟨k, hk⟩ := Prog.of_waits a4
  refine ⟨i, j, k, a1, a2, a3, ?_, ?_⟩
  · rw [h2]; exact hk
  · rw [h2]; exact Prog.eq_of_value a5

end SP
