import Verif.Model.Disparity
/-!
# `lib/lowest_penalties.cpp`
-/
namespace SP
open FloatOps
variable {F : Type} [FloatOps F]

/-- `calculate_lowest_pixel_penalty`, `lowest_penalties.cpp:97-119`.
Fuel: the condition implies `d < disparity_levels`. -/
def calculateLowestPixelPenalty (graph : DisparityGraph F) (pixel : Pixel) : M F := do
  let minimal_penalty ← nodePenalty graph { pixel := pixel, disparity := 0 }
  cfor graph.disparityLevels.toNat 0
    (fun d => decide (pixel.x + d < graph.left.width) && decide (d < graph.disparityLevels)) inc
    (fun d minimal_penalty => do
      let p ← nodePenalty graph { pixel := pixel, disparity := d }
      return (min' p minimal_penalty, false))
    minimal_penalty

/-- The value given to `initial_disparity`, `lowest_penalties.cpp:155-165` and `labeling_finder.cpp:117-127`. -/
def initialDisparity (pixel neighbor : Pixel) (disparity : UInt64) : UInt64 :=
  if disparity ≤ 1 ∨ neighbor.x = pixel.x then 0 else disparity - 1

/-- `calculate_lowest_neighborhood_penalty_fast`, `lowest_penalties.cpp:141-180`. -/
def calculateLowestNeighborhoodPenaltyFast (graph : DisparityGraph F) (edge : Edge) : M F := do
  let minimal_penalty ← edgePenalty graph edge
  cfor graph.disparityLevels.toNat 0
    (fun d => decide (edge.node.pixel.x + d < graph.left.width) && decide (d < graph.disparityLevels)) inc
    (fun d minimal_penalty => do
      let m ← cfor graph.disparityLevels.toNat
        (initialDisparity edge.node.pixel edge.neighbor.pixel d)
        (fun d' => decide (edge.neighbor.pixel.x + d' < graph.left.width)
          && decide (d' < graph.disparityLevels)) inc
        (fun d' minimal_penalty => do
          let p ← edgePenalty graph
            { node := { edge.node with disparity := d }
              neighbor := { edge.neighbor with disparity := d' } }
          return (min' p minimal_penalty, false))
        minimal_penalty
      return (m, false))
    minimal_penalty

/-- `calculate_lowest_neighborhood_penalty`, `lowest_penalties.cpp:121-139`. -/
def calculateLowestNeighborhoodPenalty (graph : DisparityGraph F) (pixel neighbor : Pixel) : M F :=
  calculateLowestNeighborhoodPenaltyFast graph
    { node := { pixel := pixel, disparity := 0 }, neighbor := { pixel := neighbor, disparity := 0 } }

/-- `calculate_lowest_neighborhood_penalty_slow`, `lowest_penalties.cpp:182-200`. -/
def calculateLowestNeighborhoodPenaltySlow (graph : DisparityGraph F) (pixel : Pixel)
    (neighbor_index : UInt64) : M F :=
  calculateLowestNeighborhoodPenaltyFast graph
    { node := { pixel := pixel, disparity := 0 }
      neighbor := { pixel := neighborByIndex pixel neighbor_index, disparity := 0 } }

/-- Body of the loop over neighbors in `LowestPenalties::LowestPenalties`, `lowest_penalties.cpp:68-91`. -/
def lowestPenaltiesNeighbors (graph : DisparityGraph F) (pixel : Pixel) (neighborhoods : Array F) :
    M (Array F) :=
  cfor 4 0 (fun n => decide (n < NEIGHBORS_COUNT)) inc
    (fun n neighborhoods => do
      if !neighborhoodExistsFast graph pixel n then
        return (neighborhoods, false)
      let p ← calculateLowestNeighborhoodPenaltySlow graph pixel n
      let neighborhoods ← wr neighborhoods (neighborhoodIndexFast graph pixel n) p
      return (neighborhoods, false))
    neighborhoods

/-- `LowestPenalties::LowestPenalties`, `lowest_penalties.cpp:43-94`. -/
def mkLowestPenalties (graph : DisparityGraph F) : M (LowestPenalties F) := do
  let pixels := Array.replicate (graph.right.height * graph.right.width).toNat (zero : F)
  let neighborhoods :=
    Array.replicate (NEIGHBORS_COUNT * graph.right.height * graph.right.width).toNat (zero : F)
  let r ← cfor graph.right.width.toNat 0 (fun x => decide (x < graph.right.width)) inc
    (fun x (s : Array F × Array F) => do
      let s ← cfor graph.right.height.toNat 0 (fun y => decide (y < graph.right.height)) inc
        (fun y (s : Array F × Array F) => do
          let pixel : Pixel := { x := x, y := y }
          let p ← calculateLowestPixelPenalty graph pixel
          let pixels ← wr s.1 (pixelIndex graph.right pixel) p
          let neighborhoods ← lowestPenaltiesNeighbors graph pixel s.2
          return ((pixels, neighborhoods), false))
        s
      return (s, false))
    (pixels, neighborhoods)
  return { graph := graph, pixels := r.1, neighborhoods := r.2 }

/-- `lowest_pixel_penalty`, `lowest_penalties.cpp:202-208`. -/
def lowestPixelPenalty (penalties : LowestPenalties F) (pixel : Pixel) : M F :=
  rd penalties.pixels (pixelIndex penalties.graph.right pixel)

/-- `lowest_neighborhood_penalty_fast`, `lowest_penalties.cpp:210-219`. -/
def lowestNeighborhoodPenaltyFast (penalties : LowestPenalties F) (pixel neighbor : Pixel) : M F :=
  rd penalties.neighborhoods (neighborhoodIndex penalties.graph pixel neighbor)

/-- `lowest_neighborhood_penalty`, `lowest_penalties.cpp:221-229`. -/
def lowestNeighborhoodPenalty (penalties : LowestPenalties F) (edge : Edge) : M F :=
  rd penalties.neighborhoods (neighborhoodIndexSlow penalties.graph edge)

end SP
