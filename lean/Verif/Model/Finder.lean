import Verif.Model.Constraint
/-!
# `lib/labeling_finder.cpp`
-/
namespace SP
open FloatOps
variable {F : Type} [FloatOps F]

/-- Insertion of an element in a sorted list; used by `sortF`. -/
def insertF (a : F) : List F → List F
  | [] => [a]
  | b :: l => if le a b then a :: b :: l else b :: insertF a l

/-- `std::sort` with `operator<`. The standard fixes the result up to the order of equal elements; the model uses
insertion sort. -/
def sortF : List F → List F
  | [] => []
  | a :: l => insertF a (sortF l)

/-- `std::unique` followed by `erase`: of each run of equal (`==`) elements only the first is kept. -/
def uniqueF : List F → List F
  | [] => []
  | a :: l =>
    match uniqueF l with
    | [] => [a]
    | b :: l' => if eq a b then a :: l' else a :: b :: l'

/-- One step of `mergeF`: the first range is `a :: l₁`, `rest` merges `l₁` with a list. -/
def mergeAux (a : F) (l₁ : List F) (rest : List F → List F) : List F → List F
  | [] => a :: l₁
  | b :: l₂ => if lt b a then b :: mergeAux a l₁ rest l₂ else a :: rest (b :: l₂)

/-- `std::merge` with `operator<`: takes from the second range only if its head is less than the head of the first. -/
def mergeF : List F → List F → List F
  | [] => fun l₂ => l₂
  | a :: l₁ => mergeAux a l₁ (mergeF l₁)

/-- `fetch_pixel_available_penalties`, `labeling_finder.cpp:70-99`. The array of the needed size is created first and then
filled; here its elements are appended in the same order. -/
def fetchPixelAvailablePenalties (graph : DisparityGraph F) (pixel : Pixel) (minimal_penalty : F) :
    M (List F) := do
  let size : UInt64 :=
    if pixel.x + graph.disparityLevels < graph.left.width + 1
    then graph.disparityLevels else graph.left.width - pixel.x
  let result ← cfor size.toNat 0 (fun d => decide (d < size)) inc
    (fun d (result : List F) => do
      let p ← nodePenalty graph { pixel := pixel, disparity := d }
      return (result ++ [sub p minimal_penalty], false))
    []
  return uniqueF (sortF result)

/-- `fetch_edge_available_penalties`, `labeling_finder.cpp:101-144`. -/
def fetchEdgeAvailablePenalties (graph : DisparityGraph F) (edge : Edge) (minimal_penalty : F) :
    M (List F) := do
  let result ← cfor graph.disparityLevels.toNat 0
    (fun d => decide (edge.node.pixel.x + d < graph.left.width) && decide (d < graph.disparityLevels)) inc
    (fun d (result : List F) => do
      let result ← cfor graph.disparityLevels.toNat
        (initialDisparity edge.node.pixel edge.neighbor.pixel d)
        (fun d' => decide (edge.neighbor.pixel.x + d' < graph.left.width)
          && decide (d' < graph.disparityLevels)) inc
        (fun d' (result : List F) => do
          let p ← edgePenalty graph
            { node := { edge.node with disparity := d }
              neighbor := { edge.neighbor with disparity := d' } }
          return (result ++ [sub p minimal_penalty], false))
        result
      return (result, false))
    []
  return uniqueF (sortF result)

/-- `fetch_available_penalties`, `labeling_finder.cpp:146-225`. -/
def fetchAvailablePenalties (lowest_penalties : LowestPenalties F) : M (List F) :=
  let graph := lowest_penalties.graph
  cfor graph.right.width.toNat 0 (fun x => decide (x < graph.right.width)) inc
    (fun x (result : List F) => do
      let result ← cfor graph.right.height.toNat 0 (fun y => decide (y < graph.right.height)) inc
        (fun y (result : List F) => do
          let pixel : Pixel := { x := x, y := y }
          let l ← lowestPixelPenalty lowest_penalties pixel
          let available_penalties ← fetchPixelAvailablePenalties graph pixel l
          let result := uniqueF (sortF (mergeF result available_penalties))
          let result ← cfor 4 0 (fun n => decide (n < NEIGHBORS_COUNT)) inc
            (fun neighbor_index (result : List F) => do
              if !neighborhoodExistsFast graph pixel neighbor_index then
                return (result, false)
              let edge : Edge :=
                { node := { pixel := pixel, disparity := 0 }
                  neighbor := { pixel := neighborByIndex pixel neighbor_index, disparity := 0 } }
              let l ← lowestNeighborhoodPenalty lowest_penalties edge
              let available_penalties ← fetchEdgeAvailablePenalties graph edge l
              return (uniqueF (sortF (mergeF result available_penalties)), false))
            result
          return (result, false))
        result
      return (result, false))
    []

/-- The bisection loop of `calculate_minimal_consistent_threshold`, `labeling_finder.cpp:236-255`. Returns the final
`current_index` and (ghost) the number of calls of `solve_csp`. -/
def thresholdSearch (jobs : UInt64) (lowest_penalties : LowestPenalties F) (disparity_graph : DisparityGraph F)
    (available_penalties : Array F) : Nat → UInt64 → UInt64 → Nat → M (UInt64 × Nat)
  | 0, start, end_, calls =>
    if start < end_ then .error .nonterm else .ok ((start + end_) / 2, calls)
  | fuel + 1, start, end_, calls => do
    let current_index := (start + end_) / 2
    if start < end_ then
      let t ← rd available_penalties current_index
      let constraint_graph ← mkConstraintGraph disparity_graph lowest_penalties t
      let (_, solved) ← solveCsp jobs constraint_graph
      if solved then
        thresholdSearch jobs lowest_penalties disparity_graph available_penalties fuel
          start current_index (calls + 1)
      else
        thresholdSearch jobs lowest_penalties disparity_graph available_penalties fuel
          (current_index + 1) end_ (calls + 1)
    else return (current_index, calls)

/-- `calculate_minimal_consistent_threshold`, `labeling_finder.cpp:227-257`. Returns the threshold and (ghost) the number of
calls of `solve_csp`. Fuel: the interval gets shorter in each iteration. -/
def calculateMinimalConsistentThreshold (jobs : UInt64) (lowest_penalties : LowestPenalties F)
    (disparity_graph : DisparityGraph F) (available_penalties : Array F) : M (F × Nat) := do
  let start : UInt64 := 0
  let end_ : UInt64 := UInt64.ofNat available_penalties.size - 1
  let (current_index, calls) ←
    thresholdSearch jobs lowest_penalties disparity_graph available_penalties end_.toNat start end_ 0
  let t ← rd available_penalties current_index
  return (t, calls)

/-- First loop of `choose_best_node`, `labeling_finder.cpp:268-291`: returns `minimal_penalty`. -/
def bestPenalty (graph : ConstraintGraph F) (pixel : Pixel) : M F :=
  cfor graph.disparityGraph.disparityLevels.toNat 0
    (fun d => decide (pixel.x + d < graph.disparityGraph.left.width)
      && decide (d < graph.disparityGraph.disparityLevels)) inc
    (fun d minimal_penalty => do
      let node : Node := { pixel := pixel, disparity := d }
      if !(← isNodeAvailable graph node) then return (minimal_penalty, false)
      let p ← nodePenalty graph.disparityGraph node
      if lt minimal_penalty zero then return (p, false)
      return (min' p minimal_penalty, false))
    minusOne

/-- `choose_best_node`, `labeling_finder.cpp:260-319`. Returns the graph and `node_chosen` (`false` stands for the returned
`NULL`). -/
def chooseBestNode (graph : ConstraintGraph F) (pixel : Pixel) : M (ConstraintGraph F × Bool) := do
  let minimal_penalty ← bestPenalty graph pixel
  cfor graph.disparityGraph.disparityLevels.toNat 0
    (fun d => decide (pixel.x + d < graph.disparityGraph.left.width)
      && decide (d < graph.disparityGraph.disparityLevels)) inc
    (fun d (s : ConstraintGraph F × Bool) => do
      let node : Node := { pixel := pixel, disparity := d }
      if !(← isNodeAvailable s.1 node) then return (s, false)
      let p ← nodePenalty s.1.disparityGraph node
      if s.2 || lt minimal_penalty p then
        let g ← makeNodeUnavailable s.1 node
        return ((g, s.2), false)
      return ((s.1, true), false))
    (graph, false)

/-- `find_labeling`, `labeling_finder.cpp:349-368`. Returns the graph and `false` if the code returns `nullptr`. -/
def findLabeling (jobs : UInt64) (graph : ConstraintGraph F) : M (ConstraintGraph F × Bool) :=
  cfor graph.disparityGraph.left.width.toNat 0
    (fun x => decide (x < graph.disparityGraph.left.width)) inc
    (fun x (s : ConstraintGraph F × Bool) => do
      let s ← cfor graph.disparityGraph.left.height.toNat 0
        (fun y => decide (y < graph.disparityGraph.left.height)) inc
        (fun y (s : ConstraintGraph F × Bool) => do
          let (g, chosen) ← chooseBestNode s.1 { x := x, y := y }
          if !chosen then return ((g, false), true)
          let (g, solved) ← solveCsp jobs g
          if !solved then return ((g, false), true)
          return ((g, true), false))
        s
      return (s, !s.2))
    (graph, true)

/-- The loop over disparities in `build_disparity_map`, `labeling_finder.cpp:399-425`. The state is `result.data` and
`found`. -/
def mapPixel (graph : ConstraintGraph F) (result : Image) (pixel : Pixel) (s : Array UInt64 × Bool) :
    M (Array UInt64 × Bool) :=
  cfor graph.disparityGraph.disparityLevels.toNat 0
    (fun d => decide (pixel.x + d < graph.disparityGraph.left.width)
      && decide (d < graph.disparityGraph.disparityLevels)) inc
    (fun d (s : Array UInt64 × Bool) => do
      if (← isNodeAvailable graph { pixel := pixel, disparity := d }) then
        if s.2 then throw (.exc (.logicError "Two labels found for the pixel"))
        let data ← wr s.1 (pixelIndex result pixel) d
        return ((data, true), true)
      return (s, false))
    s

/-- `build_disparity_map`, `labeling_finder.cpp:370-440`. -/
def buildDisparityMap (graph : ConstraintGraph F) : M Image := do
  let dg := graph.disparityGraph
  let result : Image :=
    { width := dg.left.width
      height := dg.left.height
      maxValue := dg.disparityLevels
      data := Array.replicate (dg.left.height * dg.left.width).toNat 0 }
  let (data, _) ← cfor dg.left.width.toNat 0 (fun x => decide (x < dg.left.width)) inc
    (fun x (s : Array UInt64 × Bool) => do
      let s ← cfor dg.left.height.toNat 0 (fun y => decide (y < dg.left.height)) inc
        (fun y (s : Array UInt64 × Bool) => do
          let (data, found) ← mapPixel graph result { x := x, y := y } s
          if !found then throw (.exc (.logicError "Cannot find label for the pixel"))
          return ((data, false), false))
        s
      return (s, false))
    (result.data, false)
  return { result with data := data }

end SP
