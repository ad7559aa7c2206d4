import Verif.Model.Lowest
/-!
# `lib/constraint_graph.cpp`
-/
namespace SP
open FloatOps
variable {F : Type} [FloatOps F]

/-- `make_node_available`, `constraint_graph.cpp:115-122`. -/
def makeNodeAvailable (graph : ConstraintGraph F) (node : Node) : M (ConstraintGraph F) := do
  let a ← wr graph.nodesAvailability (nodeIndex graph.disparityGraph node) true
  return { graph with nodesAvailability := a }

/-- `make_node_unavailable`, `constraint_graph.cpp:124-131`. -/
def makeNodeUnavailable (graph : ConstraintGraph F) (node : Node) : M (ConstraintGraph F) := do
  let a ← wr graph.nodesAvailability (nodeIndex graph.disparityGraph node) false
  return { graph with nodesAvailability := a }

/-- The number of availability flags as the code computes it, `constraint_graph.cpp:70-72,138-140,247-249`. -/
def nodesCount (graph : DisparityGraph F) : UInt64 :=
  graph.right.width * graph.right.height * graph.disparityLevels

/-- `make_all_nodes_unavailable`, `constraint_graph.cpp:133-146`. -/
def makeAllNodesUnavailable (graph : ConstraintGraph F) : M (ConstraintGraph F) := do
  let a ← cfor (nodesCount graph.disparityGraph).toNat 0
    (fun index => decide (index < nodesCount graph.disparityGraph)) inc
    (fun index a => do
      let a ← wr a index false
      return (a, false))
    graph.nodesAvailability
  return { graph with nodesAvailability := a }

/-- `is_node_available`, `constraint_graph.cpp:148-156`. -/
def isNodeAvailable (graph : ConstraintGraph F) (node : Node) : M Bool :=
  rd graph.nodesAvailability (nodeIndex graph.disparityGraph node)

/-- `is_edge_available`, `constraint_graph.cpp:158-170`. `&&` evaluates from left to right and stops early; the penalty
and the lowest penalty are read before existence of the edge is checked, as in the code. -/
def isEdgeAvailable (graph : ConstraintGraph F) (edge : Edge) : M Bool := do
  let p ← edgePenalty graph.disparityGraph edge
  let l ← lowestNeighborhoodPenalty graph.lowestPenalties edge
  if !le (sub p l) graph.threshold then return false
  if !(← isNodeAvailable graph edge.node) then return false
  if !(← isNodeAvailable graph edge.neighbor) then return false
  return edgeExists graph.disparityGraph edge

/-- The value given to `initial_disparity` in `should_remove_node`, `constraint_graph.cpp:206-216`. -/
def removalInitialDisparity (node : Node) (neighbor : Pixel) : UInt64 :=
  if node.pixel.x + 1 = neighbor.x ∧ node.disparity > 1 then node.disparity - 1 else 0

/-- The search for an available edge to one neighbor in `should_remove_node`, `constraint_graph.cpp:205-233`:
returns `edge_found`. -/
def edgeFound (graph : ConstraintGraph F) (node : Node) (neighbor : Pixel) : M Bool :=
  cfor graph.disparityGraph.disparityLevels.toNat (removalInitialDisparity node neighbor)
    (fun d' => decide (neighbor.x + d' < graph.disparityGraph.left.width)
      && decide (d' < graph.disparityGraph.disparityLevels)) inc
    (fun d' edge_found => do
      if (← isEdgeAvailable graph
          { node := node, neighbor := { pixel := neighbor, disparity := d' } }) then
        return (true, true)
      return (edge_found, false))
    false

/-- `should_remove_node`, `constraint_graph.cpp:172-240`. The loop variable is the value returned. -/
def shouldRemoveNode (graph : ConstraintGraph F) (node : Node) : M Bool := do
  if !(← isNodeAvailable graph node) then return false
  cfor 4 0 (fun n => decide (n < NEIGHBORS_COUNT)) inc
    (fun neighbor_index r => do
      if !neighborhoodExistsFast graph.disparityGraph node.pixel neighbor_index then
        return (r, false)
      if !(← edgeFound graph node (neighborByIndex node.pixel neighbor_index)) then
        return (true, true)
      return (r, false))
    false

/-- `check_nodes_left`, `constraint_graph.cpp:242-259`. -/
def checkNodesLeft (graph : ConstraintGraph F) : M Bool :=
  cfor (nodesCount graph.disparityGraph).toNat 0
    (fun index => decide (index < nodesCount graph.disparityGraph)) inc
    (fun index r => do
      if (← rd graph.nodesAvailability index) then return (true, true)
      return (r, false))
    false

/-- `csp_process_pixel`, `constraint_graph.cpp:261-285`. Returns the graph and `changed`. -/
def cspProcessPixel (graph : ConstraintGraph F) (pixel : Pixel) : M (ConstraintGraph F × Bool) :=
  cfor graph.disparityGraph.disparityLevels.toNat 0
    (fun d => decide (pixel.x + d < graph.disparityGraph.right.width)
      && decide (d < graph.disparityGraph.disparityLevels)) inc
    (fun d (s : ConstraintGraph F × Bool) => do
      let node : Node := { pixel := pixel, disparity := d }
      if (← shouldRemoveNode s.1 node) then
        let g ← makeNodeUnavailable s.1 node
        return ((g, true), false)
      return (s, false))
    (graph, false)

/-- The loop that computes `pixel_available`, `constraint_graph.cpp:319-332`. -/
def pixelAvailable (graph : ConstraintGraph F) (pixel : Pixel) : M Bool :=
  cfor graph.disparityGraph.disparityLevels.toNat 0
    (fun d => decide (pixel.x + d < graph.disparityGraph.right.width)
      && decide (d < graph.disparityGraph.disparityLevels)) inc
    (fun d r => do
      if (← isNodeAvailable graph { pixel := pixel, disparity := d }) then
        return (true, false)
      return (r, false))
    false

/-- `csp_solution_iteration`, `constraint_graph.cpp:287-353`. Returns the graph and the returned flag. The local variable
`changed` is initialised with `FALSE` and never assigned (the result of `csp_process_pixel` is dropped at line 318).
Fuel of the outer loop: rows visited by a terminating execution are distinct and below `height`, unless the loop is left
by `break`; with `jobs = 0` the model looks at one pass per row of height only and then answers `nonterm`. -/
def cspSolutionIteration (graph : ConstraintGraph F) (jobs job_number : UInt64) :
    M (ConstraintGraph F × Bool) := do
  if job_number ≥ graph.disparityGraph.right.height then
    return (graph, false)
  let changed := false
  let (graph, pixel_available) ← cfor graph.disparityGraph.right.height.toNat job_number
    (fun y => decide (y < graph.disparityGraph.right.height)) (fun y => y + jobs)
    (fun y (s : ConstraintGraph F × Bool) => do
      let (g, pixel_available) ← cfor graph.disparityGraph.right.width.toNat 0
        (fun x => decide (x < graph.disparityGraph.right.width)) inc
        (fun x (s : ConstraintGraph F × Bool) => do
          let pixel : Pixel := { x := x, y := y }
          let (g, _) ← cspProcessPixel s.1 pixel
          let pixel_available ← pixelAvailable g pixel
          if !pixel_available then return ((g, pixel_available), true)
          return ((g, pixel_available), false))
        s
      if !pixel_available then return ((g, pixel_available), true)
      return ((g, pixel_available), false))
    (graph, false)
  if !pixel_available then
    if !(← checkNodesLeft graph) then
      return (graph, false)
    let graph ← makeAllNodesUnavailable graph
    return (graph, true)
  return (graph, changed)

/-- One execution of the body of `while (changed)` in `solve_csp`, `constraint_graph.cpp:364-371`, with `jobs` for
`THREADS_NUMBER`, jobs being executed one after another. -/
def solveCspRound (jobs : UInt64) (graph : ConstraintGraph F) : M (ConstraintGraph F × Bool) :=
  cfor jobs.toNat 0 (fun i => decide (i < jobs)) inc
    (fun i (s : ConstraintGraph F × Bool) => do
      let (g, c) ← cspSolutionIteration s.1 jobs i
      return ((g, s.2 || c), false))
    (graph, false)

/-- The loop `while (changed)` of `solve_csp`, `constraint_graph.cpp:362-372`. `fuel` bounds the number of rounds. -/
def solveCspLoop (jobs : UInt64) : Nat → ConstraintGraph F → M (ConstraintGraph F)
  | 0, _ => .error .nonterm
  | fuel + 1, graph => do
    let (g, changed) ← solveCspRound jobs graph
    if changed then solveCspLoop jobs fuel g else return g

/-- `solve_csp`, `constraint_graph.cpp:356-374`, with `jobs` for `THREADS_NUMBER` (`1` without OpenMP, line 40), the jobs of
a round being executed one after another. A round that reports a change makes some available node unavailable, so
there are at most as many such rounds as availability flags: the fuel is enough for every terminating execution. -/
def solveCsp (jobs : UInt64) (graph : ConstraintGraph F) : M (ConstraintGraph F × Bool) := do
  let g ← solveCspLoop jobs (graph.nodesAvailability.size + 2) graph
  let r ← checkNodesLeft g
  return (g, r)

/-- `ConstraintGraph::ConstraintGraph`, `constraint_graph.cpp:60-112`. -/
def mkConstraintGraph (disparity_graph : DisparityGraph F) (lowest_penalties : LowestPenalties F)
    (threshold : F) : M (ConstraintGraph F) :=
  cfor disparity_graph.right.width.toNat 0 (fun x => decide (x < disparity_graph.right.width)) inc
    (fun x (g : ConstraintGraph F) => do
      let g ← cfor disparity_graph.right.height.toNat 0
        (fun y => decide (y < disparity_graph.right.height)) inc
        (fun y (g : ConstraintGraph F) => do
          let g ← cfor disparity_graph.disparityLevels.toNat 0
            (fun d => decide (x + d < disparity_graph.left.width)
              && decide (d < disparity_graph.disparityLevels)) inc
            (fun d (g : ConstraintGraph F) => do
              let node : Node := { pixel := { x := x, y := y }, disparity := d }
              let p ← nodePenalty disparity_graph node
              let l ← lowestPixelPenalty lowest_penalties node.pixel
              if le (sub p l) threshold then
                let g ← makeNodeAvailable g node
                return (g, false)
              return (g, false))
            g
          return (g, false))
        g
      return (g, false))
    { disparityGraph := disparity_graph
      lowestPenalties := lowest_penalties
      threshold := threshold
      nodesAvailability := Array.replicate (nodesCount disparity_graph).toNat false }

end SP
