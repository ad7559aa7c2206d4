import Verif.Model.Indexing
/-!
# Indices of the CUDA version

In code compiled for a CUDA device `ULONG` is `unsigned` (`types.hpp:98-107`), so `indexing.cpp` and `indexing_checks.cpp`, included in
`indexing.cu` and `indexing_checks.cu`, compute with 32 bits. These are the same functions as in `Model/Indexing.lean`.
Of a graph they use only sizes, and so they are all that is kept.
-/
namespace SP.Cuda
variable {F : Type}

/-- `struct Pixel`, `types.hpp:116-126`, `ULONG` is `unsigned`. -/
structure Pixel where
  x : UInt32
  y : UInt32
  deriving DecidableEq, Repr

/-- `struct Node`, `types.hpp:132-146`. -/
structure Node where
  pixel : Pixel
  disparity : UInt32
  deriving DecidableEq, Repr

/-- `struct Edge`, `types.hpp:151-161`. -/
structure Edge where
  node : Node
  neighbor : Node
  deriving DecidableEq, Repr

/-- Sizes in `struct Image` and `struct DisparityGraph` on the device. -/
structure Graph where
  leftWidth : UInt32
  leftHeight : UInt32
  rightWidth : UInt32
  rightHeight : UInt32
  disparityLevels : UInt32
  deriving DecidableEq, Repr

/-- Arguments `height`, `width`, `disparity_levels` of kernels are `unsigned`: numbers of the host lose their high bits
(`cuda_csp.cu:198-201,224-227`). `populate_structures_gpu`, `solve_csp.cu:72-83`, uses sizes of the right image for both images. -/
def ofGraph (graph : DisparityGraph F) : Graph :=
  { leftWidth := graph.right.width.toUInt32
    leftHeight := graph.right.height.toUInt32
    rightWidth := graph.right.width.toUInt32
    rightHeight := graph.right.height.toUInt32
    disparityLevels := graph.disparityLevels.toUInt32 }

/-- `NEIGHBORS_COUNT`, `disparity_graph.hpp:59`. -/
def NEIGHBORS_COUNT : UInt32 := 4

/-- `pixel_index`, `indexing.cpp:36-39`, for an image of the given width. -/
def pixelIndex (width : UInt32) (pixel : Pixel) : UInt32 :=
  width * pixel.y + pixel.x

/-- `neighbor_index`, `indexing.cpp:46-72`. -/
def neighborIndex (pixel neighbor : Pixel) : UInt32 :=
  if pixel.x ≠ neighbor.x ∧ pixel.y ≠ neighbor.y then NEIGHBORS_COUNT
  else if pixel.x + 1 = neighbor.x then 0
  else if pixel.x = neighbor.x + 1 then 1
  else if pixel.y + 1 = neighbor.y then 2
  else if pixel.y = neighbor.y + 1 then 3
  else NEIGHBORS_COUNT

/-- `reparametrization_index_fast`, `indexing.cpp:74-91`. -/
def reparametrizationIndexFast (graph : Graph) (node : Node) (neighbor_index : UInt32) : UInt32 :=
  let index : UInt32 := 0
  let index := index * graph.rightWidth
  let index := index + node.pixel.x
  let index := index * NEIGHBORS_COUNT
  let index := index + neighbor_index
  let index := index * graph.disparityLevels
  let index := index + node.disparity
  let index := index * graph.leftHeight
  let index := index + node.pixel.y
  index

/-- `node_index`, `indexing.cpp:146-150`. -/
def nodeIndex (graph : Graph) (node : Node) : UInt32 :=
  node.disparity + graph.disparityLevels * (node.pixel.y + graph.rightHeight * node.pixel.x)

/-- `neighborhood_index_fast`, `indexing.cpp:152-160`. -/
def neighborhoodIndexFast (graph : Graph) (pixel : Pixel) (neighbor_index : UInt32) : UInt32 :=
  neighbor_index + NEIGHBORS_COUNT * (pixel.y + graph.rightHeight * pixel.x)

/-- `neighbor_by_index`, `indexing.cpp:187-209`. Decrementing `0` wraps around. -/
def neighborByIndex (pixel : Pixel) (neighbor_index : UInt32) : Pixel :=
  if neighbor_index = 0 then { pixel with x := pixel.x + 1 }
  else if neighbor_index = 1 then { pixel with x := pixel.x - 1 }
  else if neighbor_index = 2 then { pixel with y := pixel.y + 1 }
  else if neighbor_index = 3 then { pixel with y := pixel.y - 1 }
  else pixel

/-- `neighborhood_exists_fast`, `indexing_checks.cpp:51-65`. -/
def neighborhoodExistsFast (graph : Graph) (pixel : Pixel) (neighbor_index : UInt32) : Bool :=
  !(decide (neighbor_index > 3)
    || decide (pixel.y ≥ graph.rightHeight)
    || decide (pixel.x ≥ graph.rightWidth)
    || (decide (pixel.x + 1 = graph.leftWidth) && decide (neighbor_index = 0))
    || (decide (pixel.x = 0) && decide (neighbor_index = 1))
    || (decide (pixel.y + 1 = graph.leftHeight) && decide (neighbor_index = 2))
    || (decide (pixel.y = 0) && decide (neighbor_index = 3)))

/-- `neighborhood_exists`, `indexing_checks.cpp:38-49`. -/
def neighborhoodExists (graph : Graph) (pixel neighbor : Pixel) : Bool :=
  neighborhoodExistsFast graph pixel (neighborIndex pixel neighbor)

/-- `node_exists`, `indexing_checks.cpp:67-78`. -/
def nodeExists (graph : Graph) (node : Node) : Bool :=
  !(decide (node.disparity ≥ graph.disparityLevels)
    || decide (node.pixel.y ≥ graph.rightHeight)
    || decide (node.pixel.x ≥ graph.rightWidth)
    || decide (node.pixel.x + node.disparity ≥ graph.leftWidth))

/-- `edge_exists`, `indexing_checks.cpp:80-115`. -/
def edgeExists (graph : Graph) (edge : Edge) : Bool :=
  if !nodeExists graph edge.node then false
  else if !nodeExists graph edge.neighbor then false
  else if !neighborhoodExists graph edge.node.pixel edge.neighbor.pixel then false
  else if edge.node.pixel.y ≠ edge.neighbor.pixel.y then true
  else if edge.node.pixel.x + 1 = edge.neighbor.pixel.x
      ∧ edge.node.disparity > edge.neighbor.disparity + 1 then false
  else if edge.node.pixel.x = edge.neighbor.pixel.x + 1
      ∧ edge.node.disparity + 1 < edge.neighbor.disparity then false
  else true

/-- Intensities are sent as `unsigned` (`cuda_csp.cu:57-60,77-80`). -/
def intensity (value : UInt64) : UInt32 := value.toUInt32

/-- `TO_FLOAT`, `disparity_graph.cpp:38-40`: `__int2float_rn` takes an `int`. This is the number that is rounded. -/
def toFloat (x : UInt32) : Int := x.toInt32.toInt

end SP.Cuda
