import Verif.Model.Types
/-!
# `lib/indexing.cpp` and `lib/indexing_checks.cpp`
-/
namespace SP
variable {F : Type}

/-- `pixel_index`, `indexing.cpp:36-39`. -/
def pixelIndex (image : Image) (pixel : Pixel) : UInt64 :=
  image.width * pixel.y + pixel.x

/-- `pixel_value`, `indexing.cpp:41-44`. -/
def pixelValue (image : Image) (pixel : Pixel) : M UInt64 :=
  rd image.data (pixelIndex image pixel)

/-- `neighbor_index`, `indexing.cpp:46-72`. -/
def neighborIndex (pixel neighbor : Pixel) : UInt64 :=
  if pixel.x ≠ neighbor.x ∧ pixel.y ≠ neighbor.y then NEIGHBORS_COUNT
  else if pixel.x + 1 = neighbor.x then 0
  else if pixel.x = neighbor.x + 1 then 1
  else if pixel.y + 1 = neighbor.y then 2
  else if pixel.y = neighbor.y + 1 then 3
  else NEIGHBORS_COUNT

/-- `reparametrization_index_fast`, `indexing.cpp:74-91`. -/
def reparametrizationIndexFast (graph : DisparityGraph F) (node : Node) (neighbor_index : UInt64) : UInt64 :=
  let index : UInt64 := 0
  let index := index * graph.right.width
  let index := index + node.pixel.x
  let index := index * NEIGHBORS_COUNT
  let index := index + neighbor_index
  let index := index * graph.disparityLevels
  let index := index + node.disparity
  let index := index * graph.left.height
  let index := index + node.pixel.y
  index

/-- `reparametrization_index`, `indexing.cpp:93-104`. -/
def reparametrizationIndex (graph : DisparityGraph F) (node : Node) (neighbor : Pixel) : UInt64 :=
  reparametrizationIndexFast graph node (neighborIndex node.pixel neighbor)

/-- `reparametrization_index_slow`, `indexing.cpp:106-116`. -/
def reparametrizationIndexSlow (graph : DisparityGraph F) (edge : Edge) : UInt64 :=
  reparametrizationIndexFast graph edge.node (neighborIndex edge.node.pixel edge.neighbor.pixel)

/-- `reparametrization_value`, `indexing.cpp:118-125`. -/
def reparametrizationValue (graph : DisparityGraph F) (node : Node) (neighbor : Pixel) : M F :=
  rd graph.reparametrization (reparametrizationIndex graph node neighbor)

/-- `reparametrization_value_slow`, `indexing.cpp:127-133`. -/
def reparametrizationValueSlow (graph : DisparityGraph F) (edge : Edge) : M F :=
  rd graph.reparametrization (reparametrizationIndexSlow graph edge)

/-- `reparametrization_value_fast`, `indexing.cpp:135-144`. -/
def reparametrizationValueFast (graph : DisparityGraph F) (node : Node) (neighbor_index : UInt64) : M F :=
  rd graph.reparametrization (reparametrizationIndexFast graph node neighbor_index)

/-- `node_index`, `indexing.cpp:146-150`. -/
def nodeIndex (graph : DisparityGraph F) (node : Node) : UInt64 :=
  node.disparity + graph.disparityLevels * (node.pixel.y + graph.right.height * node.pixel.x)

/-- `neighborhood_index_fast`, `indexing.cpp:152-160`. -/
def neighborhoodIndexFast (graph : DisparityGraph F) (pixel : Pixel) (neighbor_index : UInt64) : UInt64 :=
  neighbor_index + NEIGHBORS_COUNT * (pixel.y + graph.right.height * pixel.x)

/-- `neighborhood_index`, `indexing.cpp:162-173`. -/
def neighborhoodIndex (graph : DisparityGraph F) (pixel neighbor : Pixel) : UInt64 :=
  neighborhoodIndexFast graph pixel (neighborIndex pixel neighbor)

/-- `neighborhood_index_slow`, `indexing.cpp:175-185`. -/
def neighborhoodIndexSlow (graph : DisparityGraph F) (edge : Edge) : UInt64 :=
  neighborhoodIndexFast graph edge.node.pixel (neighborIndex edge.node.pixel edge.neighbor.pixel)

/-- `neighbor_by_index`, `indexing.cpp:187-209`. Decrementing `0` wraps around. -/
def neighborByIndex (pixel : Pixel) (neighbor_index : UInt64) : Pixel :=
  if neighbor_index = 0 then { pixel with x := pixel.x + 1 }
  else if neighbor_index = 1 then { pixel with x := pixel.x - 1 }
  else if neighbor_index = 2 then { pixel with y := pixel.y + 1 }
  else if neighbor_index = 3 then { pixel with y := pixel.y - 1 }
  else pixel

/-- `neighborhood_exists_fast`, `indexing_checks.cpp:51-65`. -/
def neighborhoodExistsFast (graph : DisparityGraph F) (pixel : Pixel) (neighbor_index : UInt64) : Bool :=
  !(decide (neighbor_index > 3)
    || decide (pixel.y ≥ graph.right.height)
    || decide (pixel.x ≥ graph.right.width)
    || (decide (pixel.x + 1 = graph.left.width) && decide (neighbor_index = 0))
    || (decide (pixel.x = 0) && decide (neighbor_index = 1))
    || (decide (pixel.y + 1 = graph.left.height) && decide (neighbor_index = 2))
    || (decide (pixel.y = 0) && decide (neighbor_index = 3)))

/-- `neighborhood_exists`, `indexing_checks.cpp:38-49`. -/
def neighborhoodExists (graph : DisparityGraph F) (pixel neighbor : Pixel) : Bool :=
  neighborhoodExistsFast graph pixel (neighborIndex pixel neighbor)

/-- `node_exists`, `indexing_checks.cpp:67-78`. -/
def nodeExists (graph : DisparityGraph F) (node : Node) : Bool :=
  !(decide (node.disparity ≥ graph.disparityLevels)
    || decide (node.pixel.y ≥ graph.right.height)
    || decide (node.pixel.x ≥ graph.right.width)
    || decide (node.pixel.x + node.disparity ≥ graph.left.width))

/-- `edge_exists`, `indexing_checks.cpp:80-115`. -/
def edgeExists (graph : DisparityGraph F) (edge : Edge) : Bool :=
  if !nodeExists graph edge.node then false
  else if !nodeExists graph edge.neighbor then false
  else if !neighborhoodExists graph edge.node.pixel edge.neighbor.pixel then false
  else if edge.node.pixel.y ≠ edge.neighbor.pixel.y then true
  else if edge.node.pixel.x + 1 = edge.neighbor.pixel.x
      ∧ edge.node.disparity > edge.neighbor.disparity + 1 then false
  else if edge.node.pixel.x = edge.neighbor.pixel.x + 1
      ∧ edge.node.disparity + 1 < edge.neighbor.disparity then false
  else true

end SP
