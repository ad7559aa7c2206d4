import Verif.Model.Basic
/-!
# Data structures (`include/types.hpp`, `include/image.hpp`, `include/*_graph.hpp`, `include/lowest_penalties.hpp`)
-/
namespace SP

/-- `struct Pixel`, `types.hpp:116-126`. -/
structure Pixel where
  x : UInt64
  y : UInt64
  deriving DecidableEq, Repr

/-- `struct Node`, `types.hpp:132-146`. -/
structure Node where
  pixel : Pixel
  disparity : UInt64
  deriving DecidableEq, Repr

/-- `struct Edge`, `types.hpp:151-161`. -/
structure Edge where
  node : Node
  neighbor : Node
  deriving DecidableEq, Repr

/-- `struct Image`, `image.hpp:46-84`. -/
structure Image where
  width : UInt64
  height : UInt64
  maxValue : UInt64
  data : Array UInt64
  deriving DecidableEq, Repr

/-- `struct DisparityGraph`, `disparity_graph.hpp:310-425`. -/
structure DisparityGraph (F : Type) where
  left : Image
  right : Image
  disparityLevels : UInt64
  reparametrization : Array F
  cleanness : F
  smoothness : F
  deriving DecidableEq, Repr

/-- `struct LowestPenalties`, `lowest_penalties.hpp:80-129`. The pointer `graph` is modelled by the value it points to
(the code never writes through it). -/
structure LowestPenalties (F : Type) where
  graph : DisparityGraph F
  pixels : Array F
  neighborhoods : Array F
  deriving DecidableEq, Repr

/-- `struct ConstraintGraph`, `constraint_graph.hpp:273-337`. The `const` pointers `disparity_graph` and
`lowest_penalties` are modelled by the values they point to. -/
structure ConstraintGraph (F : Type) where
  disparityGraph : DisparityGraph F
  lowestPenalties : LowestPenalties F
  nodesAvailability : Array Bool
  threshold : F
  deriving DecidableEq, Repr

/-- `NEIGHBORS_COUNT`, `disparity_graph.hpp:59`. -/
def NEIGHBORS_COUNT : UInt64 := 4

end SP
