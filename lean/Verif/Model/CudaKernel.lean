import Verif.Model.Cuda
import Verif.Model.Gpu
/-!
# Kernels of the CUDA version with 32-bit numbers

`lib/solve_csp.cu`, `lib/cuda_csp.cu` and the functions of `disparity_graph.cpp`, `lowest_penalties.cpp`, `constraint_graph.cpp`,
`labeling_finder.cpp` included in `*.cu`, with `ULONG` being `unsigned` (`types.hpp:98-107`). In `Model/Gpu.lean` the functions are those with
64 bits; here they are written once more as the device executes them. Arrays are those of `Model/Gpu.lean`; intensities lose their high bits
when they are sent (`cuda_csp.cu:57-60,77-80`), which is the same as losing them when they are read.
-/
namespace SP.Cuda
open FloatOps
variable {F D : Type} [FloatOps F] [FloatOps D]

/-- `a[i]` with a 32-bit index. -/
def rd {α : Type} (a : Array α) (i : UInt32) : M α :=
  match a[i.toNat]? with
  | some v => .ok v
  | none => .error .ub

/-- `a[i] = v` with a 32-bit index. -/
def wr {α : Type} (a : Array α) (i : UInt32) (v : α) : M (Array α) :=
  if i.toNat < a.size then .ok (a.setIfInBounds i.toNat v) else .error .ub

/-- `++i` for `unsigned i`. -/
def inc (i : UInt32) : UInt32 := i + 1

/-- `__int2float_rn(x)`, the number nearest to a signed one. -/
def ofInt (n : Int) : D := if n < 0 then sub zero (ofNat n.natAbs) else ofNat n.natAbs

/-- `TO_FLOAT`, `disparity_graph.cpp:38-40`. -/
def number (x : UInt32) : D := ofInt (toFloat x)

/-! ## `indexing.cpp`, `disparity_graph.cpp`, `lowest_penalties.cpp` -/

/-- `pixel_value`, `indexing.cpp:41-44`, for an image with the given data; the width is that of the right image. -/
def pixelValue (graph : DisparityGraph D) (data : Array UInt64) (pixel : Pixel) : M UInt32 := do
  let v ← rd data (pixelIndex (ofGraph graph).rightWidth pixel)
  return intensity v

/-- `reparametrization_value`, `indexing.cpp:118-125`. -/
def reparametrizationValue (graph : DisparityGraph D) (node : Node) (neighbor : Pixel) : M D :=
  rd graph.reparametrization (reparametrizationIndexFast (ofGraph graph) node (neighborIndex node.pixel neighbor))

/-- `reparametrization_value_slow`, `indexing.cpp:127-133`. -/
def reparametrizationValueSlow (graph : DisparityGraph D) (edge : Edge) : M D :=
  rd graph.reparametrization
    (reparametrizationIndexFast (ofGraph graph) edge.node (neighborIndex edge.node.pixel edge.neighbor.pixel))

/-- `reparametrization_value_fast`, `indexing.cpp:135-144`. -/
def reparametrizationValueFast (graph : DisparityGraph D) (node : Node) (neighbor_index : UInt32) : M D :=
  rd graph.reparametrization (reparametrizationIndexFast (ofGraph graph) node neighbor_index)

/-- `edge_penalty`, `disparity_graph.cpp:184-191`. -/
def edgePenalty (graph : DisparityGraph D) (edge : Edge) : M D := do
  let r₁ ← reparametrizationValueSlow graph edge
  let r₂ ← reparametrizationValue graph edge.neighbor edge.node.pixel
  return sub (sub (mul graph.smoothness (sqr (sub (number edge.node.disparity) (number edge.neighbor.disparity)))) r₁) r₂

/-- `node_penalty`, `disparity_graph.cpp:193-206`. -/
def nodePenalty (graph : DisparityGraph D) (node : Node) : M D := do
  let left_pixel : Pixel := { x := node.pixel.x + node.disparity, y := node.pixel.y }
  let vr ← pixelValue graph graph.right.data node.pixel
  let vl ← pixelValue graph graph.left.data left_pixel
  let r₀ ← reparametrizationValueFast graph node 0
  let r₁ ← reparametrizationValueFast graph node 1
  let r₂ ← reparametrizationValueFast graph node 2
  let r₃ ← reparametrizationValueFast graph node 3
  return add (add (add (add (mul graph.cleanness (sqr (sub (number vr) (number vl)))) r₀) r₁) r₂) r₃

/-- `lowest_neighborhood_penalty`, `lowest_penalties.cpp:221-229`. -/
def lowestNeighborhoodPenalty (penalties : LowestPenalties D) (edge : Edge) : M D :=
  rd penalties.neighborhoods
    (neighborhoodIndexFast (ofGraph penalties.graph) edge.node.pixel (neighborIndex edge.node.pixel edge.neighbor.pixel))

/-! ## `constraint_graph.cpp` -/

/-- Reads the flag `i` of `size` ones; each of them has a word of its own. -/
def rdFlag (size : Nat) (i : UInt32) : Prog Bool :=
  if i.toNat < size then .load i.toNat fun v => .ret (v i.toNat) else .fail .ub

/-- Writes the flag `i` of `size` ones. -/
def wrFlag (size : Nat) (i : UInt32) (b : Bool) : Prog Unit :=
  if i.toNat < size then
    .load i.toNat fun v => .store i.toNat (fun j => if j = i.toNat then b else v j) (.ret ())
  else .fail .ub

/-- `make_node_unavailable`, `constraint_graph.cpp:124-131`. -/
def makeNodeUnavailable (graph : ConstraintGraph D) (node : Node) : Prog Unit :=
  wrFlag graph.nodesAvailability.size (nodeIndex (ofGraph graph.disparityGraph) node) false

/-- `is_node_available`, `constraint_graph.cpp:148-156`. -/
def isNodeAvailable (graph : ConstraintGraph D) (node : Node) : Prog Bool :=
  rdFlag graph.nodesAvailability.size (nodeIndex (ofGraph graph.disparityGraph) node)

/-- `is_edge_available`, `constraint_graph.cpp:158-170`. -/
def isEdgeAvailable (graph : ConstraintGraph D) (edge : Edge) : Prog Bool := do
  let p ← .lift (edgePenalty graph.disparityGraph edge)
  let l ← .lift (lowestNeighborhoodPenalty graph.lowestPenalties edge)
  if !le (sub p l) graph.threshold then return false
  if !(← isNodeAvailable graph edge.node) then return false
  if !(← isNodeAvailable graph edge.neighbor) then return false
  return edgeExists (ofGraph graph.disparityGraph) edge

/-- The value given to `initial_disparity` in `should_remove_node`, `constraint_graph.cpp:206-216`. -/
def removalInitialDisparity (node : Node) (neighbor : Pixel) : UInt32 :=
  if node.pixel.x + 1 = neighbor.x ∧ node.disparity > 1 then node.disparity - 1 else 0

/-- The search for an available edge to one neighbor in `should_remove_node`, `constraint_graph.cpp:205-233`. -/
def edgeFound (graph : ConstraintGraph D) (node : Node) (neighbor : Pixel) : Prog Bool :=
  pfor (ofGraph graph.disparityGraph).disparityLevels.toNat (removalInitialDisparity node neighbor)
    (fun d' => decide (neighbor.x + d' < (ofGraph graph.disparityGraph).leftWidth)
      && decide (d' < (ofGraph graph.disparityGraph).disparityLevels)) inc
    (fun d' edge_found => do
      if (← isEdgeAvailable graph { node := node, neighbor := { pixel := neighbor, disparity := d' } }) then
        return (true, true)
      return (edge_found, false))
    false

/-- `should_remove_node`, `constraint_graph.cpp:172-240`. -/
def shouldRemoveNode (graph : ConstraintGraph D) (node : Node) : Prog Bool := do
  if !(← isNodeAvailable graph node) then return false
  pfor 4 0 (fun n => decide (n < NEIGHBORS_COUNT)) inc
    (fun neighbor_index r => do
      if !neighborhoodExistsFast (ofGraph graph.disparityGraph) node.pixel neighbor_index then
        return (r, false)
      if !(← edgeFound graph node (neighborByIndex node.pixel neighbor_index)) then
        return (true, true)
      return (r, false))
    false

/-- `csp_process_pixel`, `constraint_graph.cpp:261-285`. -/
def cspProcessPixel (graph : ConstraintGraph D) (pixel : Pixel) : Prog Bool :=
  pfor (ofGraph graph.disparityGraph).disparityLevels.toNat 0
    (fun d => decide (pixel.x + d < (ofGraph graph.disparityGraph).rightWidth)
      && decide (d < (ofGraph graph.disparityGraph).disparityLevels)) inc
    (fun d changed => do
      let node : Node := { pixel := pixel, disparity := d }
      if (← shouldRemoveNode graph node) then
        makeNodeUnavailable graph node
        return (true, false)
      return (changed, false))
    false

/-! ## Kernels -/

/-- The loop of `csp_solution_iteration_gpu`, `solve_csp.cu:104-113`. -/
def rounds (graph : ConstraintGraph D) (pixel : Pixel) : Nat → Prog Unit
  | 0 => .fail .nonterm
  | fuel + 1 =>
    (Gpu.wrChanged graph 0 false).bind fun _ =>
    .barrier <|
    (cspProcessPixel graph pixel).bind fun changed =>
    (if changed then Gpu.wrChanged graph 0 true else .ret ()).bind fun _ =>
    .barrier <|
    (Gpu.rdChanged graph 0).bind fun again =>
    if again then rounds graph pixel fuel else .ret ()

/-- The pixel of a thread, `solve_csp.cu:156-158`; threads are numbered as in `Gpu.threadPixel`. -/
def threadPixel (graph : ConstraintGraph D) (number : UInt64) : Pixel :=
  { x := (number / graph.disparityGraph.right.height).toUInt32
    y := (number % graph.disparityGraph.right.height).toUInt32 }

/-- The kernel `csp_iteration_cuda`, `solve_csp.cu:116-165`. -/
def cspIteration (graph : ConstraintGraph D) (number : UInt64) : Prog Unit :=
  rounds graph (threadPixel graph number) (Gpu.roundsLimit graph)

/-- `is_node_available` in `choose_best_node_gpu`, which is executed by one thread. -/
def nodeAvailable (graph : ConstraintGraph D) (node : Node) : M Bool :=
  rd graph.nodesAvailability (nodeIndex (ofGraph graph.disparityGraph) node)

/-- First loop of `choose_best_node`, `labeling_finder.cpp:268-291`. -/
def bestPenalty (graph : ConstraintGraph D) (pixel : Pixel) : M D :=
  cfor (ofGraph graph.disparityGraph).disparityLevels.toNat 0
    (fun d => decide (pixel.x + d < (ofGraph graph.disparityGraph).leftWidth)
      && decide (d < (ofGraph graph.disparityGraph).disparityLevels)) inc
    (fun d minimal_penalty => do
      let node : Node := { pixel := pixel, disparity := d }
      if !(← nodeAvailable graph node) then return (minimal_penalty, false)
      let p ← nodePenalty graph.disparityGraph node
      if lt minimal_penalty zero then return (p, false)
      return (min' p minimal_penalty, false))
    minusOne

/-- `choose_best_node`, `labeling_finder.cpp:260-319`, as it is executed by `choose_best_node_gpu`, `solve_csp.cu:167-212`. -/
def chooseBestNode (graph : ConstraintGraph D) (pixel : Pixel) : M (ConstraintGraph D) := do
  let minimal_penalty ← bestPenalty graph pixel
  let s ← cfor (ofGraph graph.disparityGraph).disparityLevels.toNat 0
    (fun d => decide (pixel.x + d < (ofGraph graph.disparityGraph).leftWidth)
      && decide (d < (ofGraph graph.disparityGraph).disparityLevels)) inc
    (fun d (s : ConstraintGraph D × Bool) => do
      let node : Node := { pixel := pixel, disparity := d }
      if !(← nodeAvailable s.1 node) then return (s, false)
      let p ← nodePenalty s.1.disparityGraph node
      if s.2 || lt minimal_penalty p then
        let a ← wr s.1.nodesAvailability (nodeIndex (ofGraph s.1.disparityGraph) node) false
        return (({ s.1 with nodesAvailability := a }, s.2), false)
      return ((s.1, true), false))
    (graph, false)
  return s.1

/-! ## The host -/

/-- `csp_solution_cuda`, `cuda_csp.cu:177-236`. The host counts with 64 bits; `x` and `y` are sent as `unsigned`. -/
def cspSolution (launch : Launcher D) (graph : ConstraintGraph D) : M (ConstraintGraph D) := do
  let (d, _) ← cfor graph.disparityGraph.right.width.toNat 0
    (fun x => decide (x < graph.disparityGraph.right.width)) SP.inc
    (fun x (s : Device D × Nat) => do
      let s ← cfor graph.disparityGraph.right.height.toNat 0
        (fun y => decide (y < graph.disparityGraph.right.height)) SP.inc
        (fun y (s : Device D × Nat) => do
          let g ← chooseBestNode s.1.graph { x := x.toUInt32, y := y.toUInt32 }
          let d ← launch s.2 { s.1 with graph := g }
          return ((d, s.2 + 1), false))
        s
      return (s, false))
    ({ graph := graph, changed := fun _ => false }, 0)
  return d.graph

/-- `find_labeling_cuda`, `labeling_finder.cpp:337-346`, with kernels that compute with 32 bits. -/
def findLabeling (conv : F → D) (launch : Launcher D) (graph : ConstraintGraph F) : M (ConstraintGraph F × Bool) := do
  let g ← cspSolution launch (graph.onDevice conv)
  return ({ graph with nodesAvailability := g.nodesAvailability }, true)

/-- `csp_solution_cuda`, `cuda_csp.cu:177-236`, on a device with limits, as `Gpu.cspSolutionCudaLimited`. -/
def cspSolutionLimited (limits : Gpu.Limits) (launch : Launcher D) (graph : ConstraintGraph D) : M (ConstraintGraph D) := do
  let (d, _, failed) ← cfor graph.disparityGraph.right.width.toNat 0
    (fun x => decide (x < graph.disparityGraph.right.width)) SP.inc
    (fun x (s : Device D × Nat × Bool) => do
      let s ← cfor graph.disparityGraph.right.height.toNat 0
        (fun y => decide (y < graph.disparityGraph.right.height)) SP.inc
        (fun y (s : Device D × Nat × Bool) => do
          Gpu.cudaCheckError s.2.2
          let g ← chooseBestNode s.1.graph { x := x.toUInt32, y := y.toUInt32 }
          if limits.Fits graph then
            let d ← launch s.2.1 { s.1 with graph := g }
            return ((d, s.2.1 + 1, s.2.2), false)
          else
            return (({ s.1 with graph := g }, s.2.1 + 1, true), false))
        s
      return (s, false))
    ({ graph := graph, changed := fun _ => false }, 0, false)
  Gpu.cudaCheckError failed
  return d.graph

/-- `find_labeling_cuda`, `labeling_finder.cpp:337-346`, on a device with limits. -/
def findLabelingLimited (limits : Gpu.Limits) (conv : F → D) (launch : Launcher D) (graph : ConstraintGraph F) :
    M (ConstraintGraph F × Bool) := do
  let g ← cspSolutionLimited limits launch (graph.onDevice conv)
  return ({ graph with nodesAvailability := g.nodesAvailability }, true)

end SP.Cuda
