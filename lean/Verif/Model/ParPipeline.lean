import Verif.Model.Parallel
/-!
# The computation of `main` with `solve_csp` executed concurrently

The functions of `Model/Finder.lean` and `Model/Pipeline.lean` that call `solve_csp`, with its result taken from outside: the
result of a concurrent execution depends on the schedule, and two calls with the same graph may have different results.
-/
namespace SP
open FloatOps
variable {F : Type} [FloatOps F]

/-- Results of `solve_csp`: of the call number `n` with the graph `c`. -/
abbrev Solver (F : Type) := Nat → ConstraintGraph F → M (ConstraintGraph F × Bool)

/-- The loop `while (changed)` may go on forever. -/
def Diverges (B n : Nat) (jobs : UInt64) (c : ConstraintGraph F) : Prop :=
  ∃ f : Nat → ConstraintGraph F, f 0 = c ∧ ∀ k, RoundTo B n jobs (f k) (f (k + 1)) true

/-- Graphs in the loop `while (changed)` after some rounds. -/
inductive RoundsTo (B n : Nat) (jobs : UInt64) : ConstraintGraph F → ConstraintGraph F → Prop where
  | refl (c : ConstraintGraph F) : RoundsTo B n jobs c c
  | again {c c' c'' : ConstraintGraph F} (h : RoundsTo B n jobs c c') (h' : RoundTo B n jobs c' c'' true) :
      RoundsTo B n jobs c c''

/-- Possible outcomes of `solve_csp` compiled with OpenMP and executed by `jobs` threads, `constraint_graph.cpp:356-374`: it returns;
it goes on forever; a worker of some round fails, or the last check does. -/
def SolveOutcome (B : Nat) (jobs : UInt64) (c : ConstraintGraph F) : M (ConstraintGraph F × Bool) → Prop
  | .ok (c', solved) => SolveTo B jobs c c' solved
  | .error e =>
    (e = .nonterm ∧ Diverges B jobs.toNat jobs c) ∨
    (∃ c' P i, RoundsTo B jobs.toNat jobs c c' ∧ Steps false (fun _ => 0) jobs.toNat (roundStart B jobs c') P ∧
      i < jobs.toNat ∧ P.prog i = .fail e) ∨
    ∃ c', LoopTo B jobs.toNat jobs c c' ∧ checkNodesLeft c' = .error e

/-- Each call of the solver has a possible outcome. -/
def Solver.Possible (B : Nat) (jobs : UInt64) (solve : Solver F) : Prop := ∀ n c, SolveOutcome B jobs c (solve n c)

namespace Par
variable (solve : Solver F)

/-- The bisection loop of `calculate_minimal_consistent_threshold`, `labeling_finder.cpp:236-255`. The last argument is the number
of calls of `solve_csp` made so far. -/
def thresholdSearch (lowest_penalties : LowestPenalties F) (disparity_graph : DisparityGraph F)
    (available_penalties : Array F) : Nat → UInt64 → UInt64 → Nat → M (UInt64 × Nat)
  | 0, start, end_, calls =>
    if start < end_ then .error .nonterm else .ok ((start + end_) / 2, calls)
  | fuel + 1, start, end_, calls => do
    let current_index := (start + end_) / 2
    if start < end_ then
      let t ← rd available_penalties current_index
      let constraint_graph ← mkConstraintGraph disparity_graph lowest_penalties t
      let (_, solved) ← solve calls constraint_graph
      if solved then
        thresholdSearch lowest_penalties disparity_graph available_penalties fuel
          start current_index (calls + 1)
      else
        thresholdSearch lowest_penalties disparity_graph available_penalties fuel
          (current_index + 1) end_ (calls + 1)
    else return (current_index, calls)

/-- `calculate_minimal_consistent_threshold`, `labeling_finder.cpp:227-257`. -/
def calculateMinimalConsistentThreshold (lowest_penalties : LowestPenalties F)
    (disparity_graph : DisparityGraph F) (available_penalties : Array F) : M (F × Nat) := do
  let start : UInt64 := 0
  let end_ : UInt64 := UInt64.ofNat available_penalties.size - 1
  let (current_index, calls) ←
    thresholdSearch solve lowest_penalties disparity_graph available_penalties end_.toNat start end_ 0
  let t ← rd available_penalties current_index
  return (t, calls)

/-- `find_labeling`, `labeling_finder.cpp:349-368`. The last component of the state is the number of calls made so far. -/
def findLabeling (calls : Nat) (graph : ConstraintGraph F) : M (ConstraintGraph F × Bool × Nat) :=
  cfor graph.disparityGraph.left.width.toNat 0
    (fun x => decide (x < graph.disparityGraph.left.width)) inc
    (fun x (s : ConstraintGraph F × Bool × Nat) => do
      let s ← cfor graph.disparityGraph.left.height.toNat 0
        (fun y => decide (y < graph.disparityGraph.left.height)) inc
        (fun y (s : ConstraintGraph F × Bool × Nat) => do
          let (g, chosen) ← chooseBestNode s.1 { x := x, y := y }
          if !chosen then return ((g, false, s.2.2), true)
          let (g, solved) ← solve s.2.2 g
          if !solved then return ((g, false, s.2.2 + 1), true)
          return ((g, true, s.2.2 + 1), false))
        s
      return (s, !s.2.1))
    (graph, true, calls)

/-- `main.cpp:171-182`: lowest penalties, candidates and the threshold. -/
def minimalThreshold (graph : DisparityGraph F) : M (LowestPenalties F × F × Nat) := do
  let lowest_penalties ← mkLowestPenalties graph
  let available_penalties ← fetchAvailablePenalties lowest_penalties
  let (threshold, calls) ←
    calculateMinimalConsistentThreshold solve lowest_penalties graph available_penalties.toArray
  return (lowest_penalties, threshold, calls)

/-- `main.cpp:171-195`: the constraint graph after `solve_csp`. -/
def solvedGraph (graph : DisparityGraph F) : M (ConstraintGraph F × Nat) := do
  let (lowest_penalties, threshold, calls) ← minimalThreshold solve graph
  let constraint_graph ← mkConstraintGraph graph lowest_penalties threshold
  let (constraint_graph, solved) ← solve calls constraint_graph
  if !solved then
    throw (.exc (.logicError "Cannot solve CSP problem. This should not ever happen. Refer to the developers."))
  return (constraint_graph, calls + 1)

/-- `main.cpp:171-240` for `Parallelism::CPU`: from a disparity graph to the disparity map. -/
def disparityMap (graph : DisparityGraph F) : M Image := do
  let (constraint_graph, calls) ← solvedGraph solve graph
  let (constraint_graph, labeled, _) ← findLabeling solve calls constraint_graph
  if !labeled then
    throw (.exc (.logicError "Cannot find labeling. This should not ever happen. Refer to the developers."))
  buildDisparityMap constraint_graph

/-- `find_labeling` without the number of calls. -/
def labelCpu (calls : Nat) (graph : ConstraintGraph F) : M (ConstraintGraph F × Bool) := do
  let (graph, labeled, _) ← findLabeling solve calls graph
  return (graph, labeled)

/-- `main.cpp:171-240` for a given function that finds a labeling; it gets the number of calls of `solve_csp` made before.
`find_labeling` and its variants return their argument or `nullptr`, so `build_disparity_map` is called for the same graph. -/
def labeledMap (label : Nat → ConstraintGraph F → M (ConstraintGraph F × Bool)) (graph : DisparityGraph F) : M Image := do
  let (constraint_graph, calls) ← solvedGraph solve graph
  let (constraint_graph, labeled) ← label calls constraint_graph
  if !labeled then
    throw (.exc (.logicError "Cannot find labeling. This should not ever happen. Refer to the developers."))
  buildDisparityMap constraint_graph

end Par
end SP
