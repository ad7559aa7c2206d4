import Verif.Model.Finder
/-!
# The computation of `main`, `lib/main.cpp:164-240`

Reading of the images and writing of the result are in `Model/Main.lean`.
-/
namespace SP
open FloatOps
variable {F : Type} [FloatOps F]

/-- `main.cpp:171-182`: lowest penalties, candidates and the threshold. -/
def minimalThreshold (jobs : UInt64) (graph : DisparityGraph F) : M (LowestPenalties F × F) := do
  let lowest_penalties ← mkLowestPenalties graph
  let available_penalties ← fetchAvailablePenalties lowest_penalties
  let (threshold, _) ← calculateMinimalConsistentThreshold jobs lowest_penalties graph available_penalties.toArray
  return (lowest_penalties, threshold)

/-- `main.cpp:171-195`: the constraint graph after `solve_csp`. -/
def solvedGraph (jobs : UInt64) (graph : DisparityGraph F) : M (ConstraintGraph F) := do
  let (lowest_penalties, threshold) ← minimalThreshold jobs graph
  let constraint_graph ← mkConstraintGraph graph lowest_penalties threshold
  let (constraint_graph, solved) ← solveCsp jobs constraint_graph
  if !solved then
    throw (.exc (.logicError "Cannot solve CSP problem. This should not ever happen. Refer to the developers."))
  return constraint_graph

/-- `main.cpp:171-240` for `Parallelism::CPU`: from a disparity graph to the disparity map. -/
def disparityMap (jobs : UInt64) (graph : DisparityGraph F) : M Image := do
  let constraint_graph ← solvedGraph jobs graph
  let (constraint_graph, labeled) ← findLabeling jobs constraint_graph
  if !labeled then
    throw (.exc (.logicError "Cannot find labeling. This should not ever happen. Refer to the developers."))
  buildDisparityMap constraint_graph

end SP
