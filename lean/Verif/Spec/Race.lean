import Verif.Model.Gpu
/-!
# Data races

Two workers are about to access the same word and at least one of these accesses is a store: nothing orders them. `atomic_and` in
the beginning of the OpenCL kernel (`solve_csp.cl:116-117`) is treated as an ordinary store here.
-/
namespace SP
variable {α : Type}

/-- The next step of the program is a load of the word. -/
def Prog.Loads (p : Prog α) (w : Nat) : Prop := ∃ k, p = .load w k

/-- The next step of the program is a store to the word. -/
def Prog.Stores (p : Prog α) (w : Nat) : Prop := ∃ v k, p = .store w v k

/-- The worker `i` is about to store the word, and the worker `j` is about to load or to store it. -/
def Race (n : Nat) (P : Pool α) (i j w : Nat) : Prop :=
  i < n ∧ j < n ∧ i ≠ j ∧ (P.prog i).Stores w ∧ ((P.prog j).Loads w ∨ (P.prog j).Stores w)

section
variable {F : Type} [FloatOps F]

/-- Outcomes of `solve_csp` according to the standard of C++: those of `SolveOutcome`, and a data race is undefined behaviour. -/
def SolveOutcomeStd (B : Nat) (jobs : UInt64) (c : ConstraintGraph F) (m : M (ConstraintGraph F × Bool)) : Prop :=
  SolveOutcome B jobs c m ∨
  (m = .error .ub ∧ ∃ c' P i j w, RoundsTo B jobs.toNat jobs c c' ∧
    Steps true (fun _ => 0) jobs.toNat (roundStart B jobs c') P ∧ Race jobs.toNat P i j w)

/-- Each call of the solver has a possible outcome. -/
def Solver.PossibleStd (B : Nat) (jobs : UInt64) (solve : Solver F) : Prop := ∀ n c, SolveOutcomeStd B jobs c (solve n c)

end
end SP
