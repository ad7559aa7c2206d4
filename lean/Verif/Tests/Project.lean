import Verif.Model.Finder
import Verif.Model.Pgm
import Verif.Spec.Float
import Verif.Props.Main
/-!
# Tests of the project

Each `BOOST_AUTO_TEST_CASE` of `/repo/tests` is evaluated in the model by the kernel. `BOOST_CHECK` and `BOOST_CHECK_EQUAL` are taken as they
are, `BOOST_CHECK_CLOSE` is taken for equality. Numbers are integers or rational numbers. `solve_csp` is that of one thread.
The remaining test, `compile` of `api.cpp`, is empty.
-/
set_option maxRecDepth 1000000

namespace SP.Tests
open FloatOps

/-- A test that does not throw, does not touch memory outside of arrays, and whose checks hold. -/
def holds (m : M Bool) : Bool :=
  match m with
  | .ok b => b
  | .error _ => false

def all (checks : List Bool) : Bool := checks.all id

/-- `image_content >> pgm_io; BOOST_REQUIRE(pgm_io.get_image());` -/
def load (text : String) : M Image := do
  let (_, image) ← readPgm 1000 none (.opened (bytes text))
  match image with
  | some image => pure image
  | none => throw .ub

def blackText : String := "
    P2
    3 2
    2
    0 0 0
    0 0 0
    "
def equalText : String := "
    P2
    3 2
    256
    0   127 256
    256 127 0
    "
def loopLeftText : String := "
    P2
    3 2
    10
    8 7 10
    0 0 0
    "
def loopRightText : String := "
    P2
    3 2
    10
    10 0 0
    0 0 0
    "
def minimalLeftText : String := "
    P2
    3 2
    1
    0 0 1
    0 0 0
    "
def minimalRightText : String := "
    P2
    3 2
    1
    0 0 0
    0 0 0
    "
def basicLeftText : String := "
    P2
    3 2
    10
    4 5 10
    0 0 0
    "
def basicRightText : String := "
    P2
    3 2
    10
    10 7 0
    0 0 0
    "
def unconstrainedText : String := "
    P2
    4 3
    1
    0 0 0 0
    0 0 0 0
    0 0 0 0
    "
def leftText : String := "
    P2
    3 2
    2
    0 1 2
    2 0 1
    "
def rightText : String := "
    P2
    3 2
    2
    1 0 2
    2 0 1
    "
def lowestLeftText : String := "
    P2
    3 2
    4
    1 2 0
    3 4 3
    "
def lowestRightText : String := "
    P2
    3 2
    4
    0 1 2
    4 3 0
    "
def zeroText : String := "
    P2
    3 2
    4
    0 0 0
    0 0 0
    "

/-- `disparity_graph` of a test. -/
def graph (F : Type) [FloatOps F] (left right : String) (levels : UInt64) (cleanness smoothness : F) : M (DisparityGraph F) := do
  let left ← load left
  let right ← load right
  mkDisparityGraph left right levels cleanness smoothness

/-- `disparity_graph.reparametrization[reparametrization_index(&disparity_graph, node, neighbor)] = value`. -/
def reparametrize {F : Type} [FloatOps F] (g : DisparityGraph F) (node : Node) (neighbor : Pixel) (value : F) : M (DisparityGraph F) := do
  let r ← wr g.reparametrization (reparametrizationIndex g node neighbor) value
  pure { g with reparametrization := r }

/-! ## `tests/image.cpp` -/

/-- `image.cpp:36-43`, `create_image` -/
example : holds (do
    let image : Image := ⟨2, 1, 1, #[0, 1]⟩
    pure <| all [
      image.width == 2,
      image.height == 1,
      image.maxValue == 1,
      image.data == #[0, 1]]
    ) = true := by decide +kernel

/-- `image.cpp:45-49`, `check_image_valid` -/
example : holds (do
    imageValid ⟨2, 1, 1, #[0, 1]⟩
    ) = true := by decide +kernel

/-- `image.cpp:51-55`, `image_invalid_value` -/
example : holds (do
    let valid ← imageValid ⟨2, 1, 1, #[0, 2]⟩
    pure !valid
    ) = true := by decide +kernel

/-- `image.cpp:57-61`, `image_invalid_max_value` -/
example : holds (do
    let valid ← imageValid ⟨2, 1, 0, #[0, 0]⟩
    pure !valid
    ) = true := by decide +kernel

/-- `image.cpp:63-67`, `image_invalid_size` -/
example : holds (do
    let valid ← imageValid ⟨0, 0, 1, #[]⟩
    pure !valid
    ) = true := by decide +kernel

/-- `image.cpp:69-81`, `check_pixel_index` -/
example : holds (do
    let image : Image := ⟨3, 2, 5, #[5, 4, 3, 2, 1, 0]⟩
    let valid ← imageValid image
    pure <| all [
      valid,
      image.width == 3,
      image.height == 2,
      pixelIndex image ⟨0, 0⟩ == 0,
      pixelIndex image ⟨1, 0⟩ == 1,
      pixelIndex image ⟨2, 0⟩ == 2,
      pixelIndex image ⟨0, 1⟩ == 3,
      pixelIndex image ⟨1, 1⟩ == 4,
      pixelIndex image ⟨2, 1⟩ == 5]
    ) = true := by decide +kernel

/-- `image.cpp:83-95`, `check_pixel_value` -/
example : holds (do
    let image : Image := ⟨3, 2, 5, #[5, 4, 3, 2, 1, 0]⟩
    let valid ← imageValid image
    let v0 ← pixelValue image ⟨0, 0⟩
    let v1 ← pixelValue image ⟨1, 0⟩
    let v2 ← pixelValue image ⟨2, 0⟩
    let v3 ← pixelValue image ⟨0, 1⟩
    let v4 ← pixelValue image ⟨1, 1⟩
    let v5 ← pixelValue image ⟨2, 1⟩
    pure <| all [
      valid,
      image.width == 3,
      image.height == 2,
      v0 == 5,
      v1 == 4,
      v2 == 3,
      v3 == 2,
      v4 == 1,
      v5 == 0]
    ) = true := by decide +kernel

/-! ## `tests/disparity_graph.cpp` -/

/-- `disparity_graph.cpp:44-77`, `check_nodes_existence` -/
example : holds (do
    let g ← graph Int blackText blackText 2 1 1
    pure <| all [
      nodeExists g ⟨⟨0, 0⟩, 0⟩,
      nodeExists g ⟨⟨1, 0⟩, 0⟩,
      nodeExists g ⟨⟨2, 0⟩, 0⟩,
      nodeExists g ⟨⟨0, 0⟩, 1⟩,
      nodeExists g ⟨⟨1, 0⟩, 1⟩,
      !nodeExists g ⟨⟨0, 0⟩, 2⟩,
      !nodeExists g ⟨⟨1, 0⟩, 2⟩,
      !nodeExists g ⟨⟨2, 0⟩, 1⟩,
      nodeExists g ⟨⟨0, 1⟩, 0⟩,
      nodeExists g ⟨⟨1, 1⟩, 0⟩,
      nodeExists g ⟨⟨2, 1⟩, 0⟩,
      nodeExists g ⟨⟨0, 1⟩, 1⟩,
      nodeExists g ⟨⟨1, 1⟩, 1⟩,
      !nodeExists g ⟨⟨0, 1⟩, 2⟩,
      !nodeExists g ⟨⟨1, 1⟩, 2⟩,
      !nodeExists g ⟨⟨2, 1⟩, 1⟩,
      !nodeExists g ⟨⟨0, 2⟩, 0⟩,
      !nodeExists g ⟨⟨3, 0⟩, 2⟩,
      !nodeExists g ⟨⟨3, 2⟩, 2⟩]
    ) = true := by decide +kernel

/-- `disparity_graph.cpp:79-112`, `check_reparametrization_indexing` -/
example : holds (do
    let g ← graph Int blackText blackText 3 1 1
    pure <| all [
      reparametrizationIndexFast g ⟨⟨0, 0⟩, 0⟩ 0 == 0,
      reparametrizationIndexFast g ⟨⟨0, 1⟩, 0⟩ 0 == 1,
      reparametrizationIndexFast g ⟨⟨0, 0⟩, 1⟩ 0 == 2,
      reparametrizationIndexFast g ⟨⟨0, 0⟩, 2⟩ 0 == 4,
      reparametrizationIndexFast g ⟨⟨0, 1⟩, 2⟩ 0 == 5,
      reparametrizationIndexFast g ⟨⟨0, 0⟩, 0⟩ 1 == 6,
      reparametrizationIndexFast g ⟨⟨0, 1⟩, 0⟩ 1 == 7,
      reparametrizationIndexFast g ⟨⟨0, 0⟩, 1⟩ 1 == 8,
      reparametrizationIndexFast g ⟨⟨0, 1⟩, 1⟩ 1 == 9,
      reparametrizationIndexFast g ⟨⟨0, 0⟩, 2⟩ 1 == 10,
      reparametrizationIndexFast g ⟨⟨0, 1⟩, 2⟩ 1 == 11,
      reparametrizationIndexFast g ⟨⟨0, 0⟩, 0⟩ 2 == 12,
      reparametrizationIndexFast g ⟨⟨0, 0⟩, 0⟩ 3 == 18,
      reparametrizationIndexFast g ⟨⟨0, 1⟩, 2⟩ 3 == 23,
      reparametrizationIndexFast g ⟨⟨1, 0⟩, 0⟩ 0 == 24,
      reparametrizationIndexFast g ⟨⟨1, 1⟩, 2⟩ 3 == 47]
    ) = true := by decide +kernel

/-- `disparity_graph.cpp:114-158`, `check_neighborhood` -/
example : holds (do
    let g ← graph Int leftText rightText 3 1 1
    pure <| all [
      neighborhoodExists g ⟨0, 0⟩ ⟨1, 0⟩,
      neighborhoodExists g ⟨0, 0⟩ ⟨0, 1⟩,
      neighborhoodExists g ⟨1, 0⟩ ⟨2, 0⟩,
      neighborhoodExists g ⟨1, 0⟩ ⟨0, 0⟩,
      neighborhoodExists g ⟨1, 0⟩ ⟨1, 1⟩,
      !neighborhoodExists g ⟨0, 0⟩ ⟨0, 0⟩,
      !neighborhoodExists g ⟨0, 0⟩ ⟨1, 1⟩,
      !neighborhoodExists g ⟨0, 0⟩ ⟨0, 2⟩,
      !neighborhoodExists g ⟨0, 0⟩ ⟨2, 0⟩,
      !neighborhoodExists g ⟨1, 0⟩ ⟨1, 0⟩,
      !neighborhoodExists g ⟨1, 0⟩ ⟨0, 1⟩,
      !neighborhoodExists g ⟨1, 0⟩ ⟨2, 1⟩]
    ) = true := by decide +kernel

/-- `disparity_graph.cpp:160-199`, `check_edges_existence` -/
example : holds (do
    let g ← graph Int leftText rightText 2 1 1
    pure <| all [
      edgeExists g ⟨⟨⟨0, 0⟩, 0⟩, ⟨⟨1, 0⟩, 0⟩⟩,
      edgeExists g ⟨⟨⟨0, 0⟩, 0⟩, ⟨⟨1, 0⟩, 1⟩⟩,
      edgeExists g ⟨⟨⟨1, 0⟩, 0⟩, ⟨⟨0, 0⟩, 0⟩⟩,
      edgeExists g ⟨⟨⟨1, 0⟩, 1⟩, ⟨⟨0, 0⟩, 0⟩⟩,
      !edgeExists g ⟨⟨⟨1, 0⟩, 2⟩, ⟨⟨1, 0⟩, 1⟩⟩,
      !edgeExists g ⟨⟨⟨0, 0⟩, 1⟩, ⟨⟨1, 0⟩, 2⟩⟩,
      !edgeExists g ⟨⟨⟨0, 0⟩, 2⟩, ⟨⟨1, 0⟩, 0⟩⟩,
      !edgeExists g ⟨⟨⟨1, 0⟩, 0⟩, ⟨⟨1, 0⟩, 2⟩⟩]
    ) = true := by decide +kernel

/-- `disparity_graph.cpp:201-234`, `check_continuity_constraint` -/
example : holds (do
    let g ← graph Int leftText rightText 3 1 1
    pure <| all [
      !edgeExists g ⟨⟨⟨0, 0⟩, 2⟩, ⟨⟨1, 0⟩, 0⟩⟩,
      !edgeExists g ⟨⟨⟨1, 0⟩, 0⟩, ⟨⟨0, 0⟩, 2⟩⟩,
      !edgeExists g ⟨⟨⟨0, 1⟩, 2⟩, ⟨⟨1, 1⟩, 0⟩⟩,
      !edgeExists g ⟨⟨⟨1, 1⟩, 0⟩, ⟨⟨0, 1⟩, 2⟩⟩]
    ) = true := by decide +kernel

/-- `disparity_graph.cpp:236-296`, `check_initial_edges_penalties`. Some of these edges do not exist. -/
example : holds (do
    let g ← graph Int leftText rightText 3 1 1
    let v0 ← edgePenalty g ⟨⟨⟨0, 0⟩, 0⟩, ⟨⟨1, 0⟩, 0⟩⟩
    let v1 ← edgePenalty g ⟨⟨⟨0, 0⟩, 0⟩, ⟨⟨0, 1⟩, 1⟩⟩
    let v2 ← edgePenalty g ⟨⟨⟨1, 0⟩, 1⟩, ⟨⟨2, 0⟩, 0⟩⟩
    let v3 ← edgePenalty g ⟨⟨⟨1, 0⟩, 0⟩, ⟨⟨0, 0⟩, 2⟩⟩
    let v4 ← edgePenalty g ⟨⟨⟨1, 0⟩, 2⟩, ⟨⟨0, 1⟩, 0⟩⟩
    let v5 ← edgePenalty g ⟨⟨⟨1, 0⟩, 2⟩, ⟨⟨1, 1⟩, 2⟩⟩
    pure <| all [
      v0 == 0,
      v1 == 1,
      v2 == 1,
      v3 == 4,
      v4 == 4,
      v5 == 0]
    ) = true := by decide +kernel

/-- `disparity_graph.cpp:298-343`, `check_initial_nodes_penalties` -/
example : holds (do
    let g ← graph Int leftText rightText 3 1 1
    let v0 ← nodePenalty g ⟨⟨0, 0⟩, 0⟩
    let v1 ← nodePenalty g ⟨⟨0, 0⟩, 1⟩
    let v2 ← nodePenalty g ⟨⟨0, 0⟩, 2⟩
    let v3 ← nodePenalty g ⟨⟨1, 0⟩, 0⟩
    let v4 ← nodePenalty g ⟨⟨1, 0⟩, 1⟩
    let v5 ← nodePenalty g ⟨⟨2, 0⟩, 0⟩
    let v6 ← nodePenalty g ⟨⟨0, 1⟩, 0⟩
    let v7 ← nodePenalty g ⟨⟨0, 1⟩, 1⟩
    let v8 ← nodePenalty g ⟨⟨0, 1⟩, 2⟩
    let v9 ← nodePenalty g ⟨⟨1, 1⟩, 0⟩
    let v10 ← nodePenalty g ⟨⟨1, 1⟩, 1⟩
    let v11 ← nodePenalty g ⟨⟨2, 1⟩, 0⟩
    pure <| all [
      v0 == 1,
      v1 == 0,
      v2 == 1,
      v3 == 1,
      v4 == 4,
      v5 == 0,
      v6 == 0,
      v7 == 4,
      v8 == 1,
      v9 == 0,
      v10 == 1,
      v11 == 0]
    ) = true := by decide +kernel

/-- `disparity_graph.cpp:345-398`, `check_edges_penalties` -/
example : holds (do
    let g ← graph Int leftText rightText 3 1 10
    let g ← reparametrize g ⟨⟨0, 0⟩, 0⟩ ⟨1, 0⟩ (-2)
    let v0 ← edgePenalty g ⟨⟨⟨0, 0⟩, 0⟩, ⟨⟨1, 0⟩, 0⟩⟩
    let v1 ← edgePenalty g ⟨⟨⟨0, 0⟩, 0⟩, ⟨⟨1, 0⟩, 1⟩⟩
    let v2 ← edgePenalty g ⟨⟨⟨1, 0⟩, 0⟩, ⟨⟨0, 0⟩, 0⟩⟩
    let v3 ← edgePenalty g ⟨⟨⟨1, 0⟩, 0⟩, ⟨⟨0, 0⟩, 1⟩⟩
    pure <| all [
      v0 == 2,
      v1 == 12,
      v2 == 2,
      v3 == 10]
    ) = true := by decide +kernel

/-- `disparity_graph.cpp:400-436`, `check_nodes_penalties` -/
example : holds (do
    let g ← graph Int leftText rightText 3 10 1
    let g ← reparametrize g ⟨⟨0, 0⟩, 0⟩ ⟨1, 0⟩ (-2)
    let v0 ← nodePenalty g ⟨⟨0, 0⟩, 0⟩
    let v1 ← nodePenalty g ⟨⟨0, 0⟩, 1⟩
    let v2 ← nodePenalty g ⟨⟨1, 0⟩, 0⟩
    pure <| all [
      v0 == 8,
      v1 == 0,
      v2 == 10]
    ) = true := by decide +kernel

/-! ## `tests/lowest_penalties.cpp` -/

/-- `lowest_penalties.cpp:44-290`, `check_neighborhoods_indexing` -/
example : holds (do
    let g ← graph Int blackText blackText 3 1 1
    let p ← mkLowestPenalties g
    pure <| all [
      neighborhoodIndexFast p.graph ⟨0, 0⟩ 0 == 0,
      neighborhoodIndex p.graph ⟨0, 0⟩ ⟨1, 0⟩ == 0,
      neighborhoodExistsFast p.graph ⟨0, 0⟩ 0,
      neighborhoodIndexFast p.graph ⟨0, 0⟩ 1 == 1,
      !neighborhoodExistsFast p.graph ⟨0, 0⟩ 1,
      neighborhoodIndexFast p.graph ⟨0, 0⟩ 2 == 2,
      neighborhoodIndex p.graph ⟨0, 0⟩ ⟨0, 1⟩ == 2,
      neighborhoodExistsFast p.graph ⟨0, 0⟩ 2,
      neighborhoodIndexFast p.graph ⟨0, 0⟩ 3 == 3,
      !neighborhoodExistsFast p.graph ⟨0, 0⟩ 3,
      neighborhoodIndexFast p.graph ⟨0, 1⟩ 0 == 4,
      neighborhoodIndex p.graph ⟨0, 1⟩ ⟨1, 1⟩ == 4,
      neighborhoodExistsFast p.graph ⟨0, 1⟩ 0,
      neighborhoodIndexFast p.graph ⟨0, 1⟩ 1 == 5,
      !neighborhoodExistsFast p.graph ⟨0, 1⟩ 1,
      neighborhoodIndexFast p.graph ⟨0, 1⟩ 2 == 6,
      !neighborhoodExistsFast p.graph ⟨0, 1⟩ 2,
      neighborhoodIndexFast p.graph ⟨0, 1⟩ 3 == 7,
      neighborhoodIndex p.graph ⟨0, 1⟩ ⟨0, 0⟩ == 7,
      neighborhoodExistsFast p.graph ⟨0, 1⟩ 3,
      neighborhoodIndexFast p.graph ⟨1, 0⟩ 0 == 8,
      neighborhoodIndex p.graph ⟨1, 0⟩ ⟨2, 0⟩ == 8,
      neighborhoodExistsFast p.graph ⟨1, 0⟩ 0,
      neighborhoodIndexFast p.graph ⟨1, 0⟩ 1 == 9,
      neighborhoodIndex p.graph ⟨1, 0⟩ ⟨0, 0⟩ == 9,
      neighborhoodExistsFast p.graph ⟨1, 0⟩ 1,
      neighborhoodIndexFast p.graph ⟨1, 0⟩ 2 == 10,
      neighborhoodIndex p.graph ⟨1, 0⟩ ⟨1, 1⟩ == 10,
      neighborhoodExistsFast p.graph ⟨1, 0⟩ 2,
      neighborhoodIndexFast p.graph ⟨1, 0⟩ 3 == 11,
      !neighborhoodExistsFast p.graph ⟨1, 0⟩ 3,
      neighborhoodIndexFast p.graph ⟨1, 1⟩ 0 == 12,
      neighborhoodIndex p.graph ⟨1, 1⟩ ⟨2, 1⟩ == 12,
      neighborhoodExistsFast p.graph ⟨1, 1⟩ 0,
      neighborhoodIndexFast p.graph ⟨1, 1⟩ 1 == 13,
      neighborhoodIndex p.graph ⟨1, 1⟩ ⟨0, 1⟩ == 13,
      neighborhoodExistsFast p.graph ⟨1, 1⟩ 1,
      neighborhoodIndexFast p.graph ⟨1, 1⟩ 2 == 14,
      !neighborhoodExistsFast p.graph ⟨1, 1⟩ 2,
      neighborhoodIndexFast p.graph ⟨1, 1⟩ 3 == 15,
      neighborhoodIndex p.graph ⟨1, 1⟩ ⟨1, 0⟩ == 15,
      neighborhoodExistsFast p.graph ⟨1, 1⟩ 3,
      neighborhoodIndexFast p.graph ⟨2, 0⟩ 0 == 16,
      !neighborhoodExistsFast p.graph ⟨2, 0⟩ 0,
      neighborhoodIndexFast p.graph ⟨2, 0⟩ 1 == 17,
      neighborhoodIndex p.graph ⟨2, 0⟩ ⟨1, 0⟩ == 17,
      neighborhoodExistsFast p.graph ⟨2, 0⟩ 1,
      neighborhoodIndexFast p.graph ⟨2, 0⟩ 2 == 18,
      neighborhoodIndex p.graph ⟨2, 0⟩ ⟨2, 1⟩ == 18,
      neighborhoodExistsFast p.graph ⟨2, 0⟩ 2,
      neighborhoodIndexFast p.graph ⟨2, 0⟩ 3 == 19,
      !neighborhoodExistsFast p.graph ⟨2, 0⟩ 3,
      neighborhoodIndexFast p.graph ⟨2, 1⟩ 0 == 20,
      !neighborhoodExistsFast p.graph ⟨2, 1⟩ 0,
      neighborhoodIndexFast p.graph ⟨2, 1⟩ 1 == 21,
      neighborhoodIndex p.graph ⟨2, 1⟩ ⟨1, 1⟩ == 21,
      neighborhoodExistsFast p.graph ⟨2, 1⟩ 1,
      neighborhoodIndexFast p.graph ⟨2, 1⟩ 2 == 22,
      !neighborhoodExistsFast p.graph ⟨2, 1⟩ 2,
      neighborhoodIndexFast p.graph ⟨2, 1⟩ 3 == 23,
      neighborhoodIndex p.graph ⟨2, 1⟩ ⟨2, 0⟩ == 23,
      neighborhoodExistsFast p.graph ⟨2, 1⟩ 3]
    ) = true := by decide +kernel

/-- `lowest_penalties.cpp:292-328`, `check_lowest_pixel_penalty` -/
example : holds (do
    let g ← graph Int lowestLeftText lowestRightText 2 10 1
    let p ← mkLowestPenalties g
    let v0 ← lowestPixelPenalty p ⟨0, 0⟩
    let v1 ← lowestPixelPenalty p ⟨1, 0⟩
    let v2 ← lowestPixelPenalty p ⟨2, 0⟩
    let v3 ← lowestPixelPenalty p ⟨0, 1⟩
    let v4 ← lowestPixelPenalty p ⟨1, 1⟩
    let v5 ← lowestPixelPenalty p ⟨2, 1⟩
    pure <| all [
      v0 == 10,
      v1 == 10,
      v2 == 40,
      v3 == 0,
      v4 == 0,
      v5 == 90]
    ) = true := by decide +kernel

/-- `lowest_penalties.cpp:330-385`, `check_lowest_vertical_neighborhood_penalty` -/
example : holds (do
    let g ← graph Int zeroText zeroText 3 1 1
    let g ← reparametrize g ⟨⟨0, 0⟩, 0⟩ ⟨0, 1⟩ (-5)
    let g ← reparametrize g ⟨⟨0, 0⟩, 1⟩ ⟨0, 1⟩ (-5)
    let g ← reparametrize g ⟨⟨0, 0⟩, 2⟩ ⟨0, 1⟩ (0)
    let g ← reparametrize g ⟨⟨0, 1⟩, 0⟩ ⟨0, 0⟩ (0)
    let g ← reparametrize g ⟨⟨0, 1⟩, 1⟩ ⟨0, 0⟩ (-5)
    let g ← reparametrize g ⟨⟨0, 1⟩, 2⟩ ⟨0, 0⟩ (-5)
    let p ← mkLowestPenalties g
    let v ← lowestNeighborhoodPenaltyFast p ⟨0, 0⟩ ⟨0, 1⟩
    pure (v == 4)
    ) = true := by decide +kernel

/-- `lowest_penalties.cpp:387-471`, `check_lowest_neighborhood_penalty`. What the test changes after
the penalties have been found is left out: the lowest penalties do not read the graph again. -/
example : holds (do
    let g ← graph Rat lowestLeftText lowestRightText 2 1 10
    let g ← reparametrize g ⟨⟨1, 0⟩, 0⟩ ⟨1, 1⟩ (1 / 2)
    let g ← reparametrize g ⟨⟨1, 0⟩, 0⟩ ⟨2, 0⟩ (-2)
    let g ← reparametrize g ⟨⟨2, 0⟩, 1⟩ ⟨1, 0⟩ (-2)
    let g ← reparametrize g ⟨⟨2, 0⟩, 0⟩ ⟨2, 1⟩ (-1)
    let g ← reparametrize g ⟨⟨2, 1⟩, 0⟩ ⟨2, 0⟩ (-1)
    let p ← mkLowestPenalties g
    let v0 ← lowestNeighborhoodPenaltyFast p ⟨0, 0⟩ ⟨1, 0⟩
    let v1 ← lowestNeighborhoodPenaltyFast p ⟨0, 0⟩ ⟨0, 1⟩
    let v2 ← lowestNeighborhoodPenaltyFast p ⟨1, 0⟩ ⟨1, 1⟩
    let v3 ← lowestNeighborhoodPenaltyFast p ⟨1, 0⟩ ⟨2, 0⟩
    let v4 ← lowestNeighborhoodPenaltyFast p ⟨2, 0⟩ ⟨2, 1⟩
    pure <| all [
      v0 == 0,
      v1 == 0,
      v2 == -1 / 2,
      v3 == 2,
      v4 == 2]
    ) = true := by decide +kernel

/-! ## `tests/constraint_graph.cpp` -/

/-- `constraint_graph.cpp:43-67`, `check_nodes_indexing` -/
example : holds (do
    let g ← graph Int blackText blackText 3 1 1
    let p ← mkLowestPenalties g
    let c ← mkConstraintGraph g p (1)
    pure <| all [
      nodeIndex c.disparityGraph ⟨⟨0, 0⟩, 0⟩ == 0,
      nodeIndex c.disparityGraph ⟨⟨0, 0⟩, 2⟩ == 2,
      nodeIndex c.disparityGraph ⟨⟨0, 1⟩, 0⟩ == 3,
      nodeIndex c.disparityGraph ⟨⟨0, 1⟩, 2⟩ == 5,
      nodeIndex c.disparityGraph ⟨⟨1, 0⟩, 0⟩ == 6]
    ) = true := by decide +kernel

/-- `constraint_graph.cpp:69-116`, `check_black_images` -/
example : holds (do
    let g ← graph Int blackText blackText 3 1 1
    let p ← mkLowestPenalties g
    let c ← mkConstraintGraph g p (1)
    let a000 ← isNodeAvailable c ⟨⟨0, 0⟩, 0⟩
    let a001 ← isNodeAvailable c ⟨⟨0, 0⟩, 1⟩
    let a002 ← isNodeAvailable c ⟨⟨0, 0⟩, 2⟩
    let a010 ← isNodeAvailable c ⟨⟨0, 1⟩, 0⟩
    let a011 ← isNodeAvailable c ⟨⟨0, 1⟩, 1⟩
    let a012 ← isNodeAvailable c ⟨⟨0, 1⟩, 2⟩
    let a100 ← isNodeAvailable c ⟨⟨1, 0⟩, 0⟩
    let a101 ← isNodeAvailable c ⟨⟨1, 0⟩, 1⟩
    let a102 ← isNodeAvailable c ⟨⟨1, 0⟩, 2⟩
    let a110 ← isNodeAvailable c ⟨⟨1, 1⟩, 0⟩
    let a111 ← isNodeAvailable c ⟨⟨1, 1⟩, 1⟩
    let a112 ← isNodeAvailable c ⟨⟨1, 1⟩, 2⟩
    let a200 ← isNodeAvailable c ⟨⟨2, 0⟩, 0⟩
    let a201 ← isNodeAvailable c ⟨⟨2, 0⟩, 1⟩
    let a202 ← isNodeAvailable c ⟨⟨2, 0⟩, 2⟩
    let a210 ← isNodeAvailable c ⟨⟨2, 1⟩, 0⟩
    let a211 ← isNodeAvailable c ⟨⟨2, 1⟩, 1⟩
    let a212 ← isNodeAvailable c ⟨⟨2, 1⟩, 2⟩
    pure <| all [
      c.threshold == 1,
      a000 == decide ((0 : UInt64) + 0 < g.left.width),
      a001 == decide ((0 : UInt64) + 1 < g.left.width),
      a002 == decide ((0 : UInt64) + 2 < g.left.width),
      a010 == decide ((0 : UInt64) + 0 < g.left.width),
      a011 == decide ((0 : UInt64) + 1 < g.left.width),
      a012 == decide ((0 : UInt64) + 2 < g.left.width),
      a100 == decide ((1 : UInt64) + 0 < g.left.width),
      a101 == decide ((1 : UInt64) + 1 < g.left.width),
      a102 == decide ((1 : UInt64) + 2 < g.left.width),
      a110 == decide ((1 : UInt64) + 0 < g.left.width),
      a111 == decide ((1 : UInt64) + 1 < g.left.width),
      a112 == decide ((1 : UInt64) + 2 < g.left.width),
      a200 == decide ((2 : UInt64) + 0 < g.left.width),
      a201 == decide ((2 : UInt64) + 1 < g.left.width),
      a202 == decide ((2 : UInt64) + 2 < g.left.width),
      a210 == decide ((2 : UInt64) + 0 < g.left.width),
      a211 == decide ((2 : UInt64) + 1 < g.left.width),
      a212 == decide ((2 : UInt64) + 2 < g.left.width)]
    ) = true := by decide +kernel

/-- `constraint_graph.cpp:118-155`, `check_equal_images` -/
example : holds (do
    let g ← graph Int equalText equalText 3 1 1
    let p ← mkLowestPenalties g
    let c ← mkConstraintGraph g p (128 * 128)
    let q0 ← nodePenalty g ⟨⟨0, 0⟩, 0⟩
    let a0 ← isNodeAvailable c ⟨⟨0, 0⟩, 0⟩
    let q1 ← nodePenalty g ⟨⟨0, 0⟩, 1⟩
    let a1 ← isNodeAvailable c ⟨⟨0, 0⟩, 1⟩
    let q2 ← nodePenalty g ⟨⟨0, 0⟩, 2⟩
    let a2 ← isNodeAvailable c ⟨⟨0, 0⟩, 2⟩
    let q3 ← nodePenalty g ⟨⟨0, 1⟩, 0⟩
    let a3 ← isNodeAvailable c ⟨⟨0, 1⟩, 0⟩
    let q4 ← nodePenalty g ⟨⟨0, 1⟩, 1⟩
    let a4 ← isNodeAvailable c ⟨⟨0, 1⟩, 1⟩
    let q5 ← nodePenalty g ⟨⟨0, 1⟩, 2⟩
    let a5 ← isNodeAvailable c ⟨⟨0, 1⟩, 2⟩
    pure <| all [
      c.threshold == 128 * 128,
      q0 == 0,
      a0,
      q1 == 127 * 127,
      a1,
      q2 == 256 * 256,
      !a2,
      q3 == 0,
      a3,
      q4 == 129 * 129,
      !a4,
      q5 == 256 * 256,
      !a5]
    ) = true := by decide +kernel

/-- `constraint_graph.cpp:157-193`, `check_disparity_loop` -/
example : holds (do
    let g ← graph Int loopLeftText loopRightText 2 1 1
    let p ← mkLowestPenalties g
    let c ← mkConstraintGraph g p (15)
    let q0 ← nodePenalty g ⟨⟨0, 0⟩, 0⟩
    let a0 ← isNodeAvailable c ⟨⟨0, 0⟩, 0⟩
    let q1 ← nodePenalty g ⟨⟨0, 0⟩, 1⟩
    let a1 ← isNodeAvailable c ⟨⟨0, 0⟩, 1⟩
    pure <| all [
      c.threshold == 15,
      q0 == 4,
      a0,
      q1 == 9,
      a1]
    ) = true := by decide +kernel

/-- `constraint_graph.cpp:206-239`, `check_minimal_node_value_calculation` -/
example : holds (do
    let g ← graph Rat minimalLeftText minimalRightText 3 1 1
    let p ← mkLowestPenalties g
    let c ← mkConstraintGraph g p (1 / 2)
    let q0 ← nodePenalty g ⟨⟨2, 0⟩, 0⟩
    let a0 ← isNodeAvailable c ⟨⟨2, 0⟩, 0⟩
    pure <| all [
      c.threshold == 1 / 2,
      q0 == 1,
      a0]
    ) = true := by decide +kernel

/-- `constraint_graph.cpp:241-297`, `check_removal` -/
example : holds (do
    let g ← graph Int basicLeftText basicRightText 3 1 1
    let p ← mkLowestPenalties g
    let c ← mkConstraintGraph g p (16)
    let q0 ← nodePenalty g ⟨⟨0, 0⟩, 0⟩
    let a0 ← isNodeAvailable c ⟨⟨0, 0⟩, 0⟩
    let q1 ← nodePenalty g ⟨⟨0, 0⟩, 1⟩
    let a1 ← isNodeAvailable c ⟨⟨0, 0⟩, 1⟩
    let q2 ← nodePenalty g ⟨⟨0, 0⟩, 2⟩
    let a2 ← isNodeAvailable c ⟨⟨0, 0⟩, 2⟩
    let q3 ← nodePenalty g ⟨⟨1, 0⟩, 0⟩
    let a3 ← isNodeAvailable c ⟨⟨1, 0⟩, 0⟩
    let (c, solved) ← solveCsp 1 c
    let b0 ← isNodeAvailable c ⟨⟨0, 0⟩, 0⟩
    let b1 ← isNodeAvailable c ⟨⟨0, 0⟩, 1⟩
    let b2 ← isNodeAvailable c ⟨⟨0, 0⟩, 2⟩
    let b3 ← isNodeAvailable c ⟨⟨1, 0⟩, 0⟩
    let b4 ← isNodeAvailable c ⟨⟨1, 0⟩, 1⟩
    let e0 ← isEdgeAvailable c ⟨⟨⟨0, 0⟩, 0⟩, ⟨⟨1, 0⟩, 0⟩⟩
    let e1 ← isEdgeAvailable c ⟨⟨⟨0, 0⟩, 1⟩, ⟨⟨1, 0⟩, 0⟩⟩
    let e2 ← isEdgeAvailable c ⟨⟨⟨0, 0⟩, 2⟩, ⟨⟨1, 0⟩, 0⟩⟩
    pure <| all [
      c.threshold == 16,
      q0 == 36,
      !a0,
      q1 == 25,
      !a1,
      q2 == 0,
      a2,
      q3 == 4,
      a3,
      solved,
      !b0,
      !b1,
      b2,
      !b3,
      b4,
      !e0,
      !e1,
      !e2]
    ) = true := by decide +kernel

/-- `constraint_graph.cpp:299-338`, `check_unconstrained_disparities` -/
example : holds (do
    let g ← graph Int unconstrainedText unconstrainedText 4 1 1
    let p ← mkLowestPenalties g
    let c ← mkConstraintGraph g p (9)
    let (c, solved) ← solveCsp 1 c
    let c ← makeNodeUnavailable c ⟨⟨1, 0⟩, 0⟩
    let c ← makeNodeUnavailable c ⟨⟨1, 1⟩, 1⟩
    let c ← makeNodeUnavailable c ⟨⟨1, 1⟩, 2⟩
    let c ← makeNodeUnavailable c ⟨⟨0, 0⟩, 1⟩
    let c ← makeNodeUnavailable c ⟨⟨0, 0⟩, 2⟩
    let c ← makeNodeUnavailable c ⟨⟨0, 0⟩, 3⟩
    let c ← makeNodeUnavailable c ⟨⟨1, 2⟩, 0⟩
    let c ← makeNodeUnavailable c ⟨⟨1, 2⟩, 1⟩
    let (c, solved') ← solveCsp 1 c
    let a0 ← isNodeAvailable c ⟨⟨0, 0⟩, 0⟩
    let a1 ← isNodeAvailable c ⟨⟨1, 0⟩, 2⟩
    let a2 ← isNodeAvailable c ⟨⟨2, 0⟩, 1⟩
    let a3 ← isNodeAvailable c ⟨⟨1, 1⟩, 0⟩
    pure <| all [
      c.threshold == 9,
      solved,
      solved',
      a0,
      a1,
      a2,
      a3]
    ) = true := by decide +kernel

/-! ## `tests/labeling_finder.cpp` -/

/-- `labeling_finder.cpp:47-100`, `check_black_images` -/
example : holds (do
    let g ← graph Int blackText blackText 2 1 1
    let p ← mkLowestPenalties g
    let pixel ← fetchPixelAvailablePenalties g ⟨0, 0⟩ 0
    let edge ← fetchEdgeAvailablePenalties g ⟨⟨⟨0, 0⟩, 0⟩, ⟨⟨0, 1⟩, 0⟩⟩ 0
    let available ← fetchAvailablePenalties p
    let (threshold, _) ← calculateMinimalConsistentThreshold 1 p g available.toArray
    let c ← mkConstraintGraph g p threshold
    let (c, solved) ← solveCsp 1 c
    let (_, found) ← findLabeling 1 c
    pure <| all [
      pixel == [0],
      edge == [0, 1],
      available == [0, 1],
      threshold == 0,
      solved,
      found]
    ) = true := by decide +kernel

/-- `labeling_finder.cpp:102-162`, `check_equal_images` -/
example : holds (do
    let g ← graph Int equalText equalText 3 1 1
    let p ← mkLowestPenalties g
    let pixel ← fetchPixelAvailablePenalties g ⟨1, 0⟩ 0
    let edge ← fetchEdgeAvailablePenalties g ⟨⟨⟨0, 0⟩, 0⟩, ⟨⟨0, 1⟩, 0⟩⟩ 0
    let available ← fetchAvailablePenalties p
    let (threshold, _) ← calculateMinimalConsistentThreshold 1 p g available.toArray
    let c ← mkConstraintGraph g p threshold
    let (c, solved) ← solveCsp 1 c
    let (_, found) ← findLabeling 1 c
    pure <| all [
      pixel == [0, 129 * 129],
      edge == [0, 1, 4],
      available == [0, 1, 4, 127 * 127, 129 * 129, 256 * 256],
      threshold == 0,
      solved,
      found]
    ) = true := by decide +kernel

/-- `labeling_finder.cpp:164-236`, `basic_check` -/
example : holds (do
    let g ← graph Int basicLeftText basicRightText 3 1 1
    let p ← mkLowestPenalties g
    let pixel ← fetchPixelAvailablePenalties g ⟨0, 0⟩ 0
    let edge ← fetchEdgeAvailablePenalties g ⟨⟨⟨0, 0⟩, 0⟩, ⟨⟨0, 1⟩, 0⟩⟩ 0
    let available ← fetchAvailablePenalties p
    let (threshold, _) ← calculateMinimalConsistentThreshold 1 p g available.toArray
    let c ← mkConstraintGraph g p threshold
    let (c, solved) ← solveCsp 1 c
    let (_, found) ← findLabeling 1 c
    pure <| all [
      pixel == [0, 25, 36],
      edge == [0, 1, 4],
      available == [0, 1, 4, 5, 25, 36],
      threshold == 5,
      solved,
      found]
    ) = true := by decide +kernel

/-! ## `tests/pgm_io.cpp` -/

/-- `pgm_io.cpp:41-70`, `read_image` -/
example : holds (do
    let (s, image) ← readPgm 1000 none (.opened (bytes "
    ##### Grayscale image #####
    P2
    # 3 columns and 2 rows
    3 2
    10 #Sticky comment

    0 1 2
    3 4 5
    # The end
    # Long end
    "))
    let some image := image | pure false
    let v0 ← pixelValue image ⟨0, 0⟩
    let v1 ← pixelValue image ⟨1, 0⟩
    let v2 ← pixelValue image ⟨2, 0⟩
    let v3 ← pixelValue image ⟨0, 1⟩
    let v4 ← pixelValue image ⟨1, 1⟩
    let v5 ← pixelValue image ⟨2, 1⟩
    pure <| all [
      !s.fail,
      image.width == 3,
      image.height == 2,
      image.maxValue == 10,
      v0 == 0,
      v1 == 1,
      v2 == 2,
      v3 == 3,
      v4 == 4,
      v5 == 5]
    ) = true := by decide +kernel

/-- `pgm_io.cpp:72-79`, `read_blank_file` -/
example : holds (do
    let (s, held) ← readPgm 1000 none (.opened (bytes ""))
    pure <| all [
      held.isNone,
      s.fail]
    ) = true := by decide +kernel

/-- `pgm_io.cpp:81-90`, `read_comment_file` -/
example : holds (do
    let (s, held) ← readPgm 1000 none (.opened (bytes "
    # Comment
    "))
    pure <| all [
      held.isNone,
      s.fail]
    ) = true := by decide +kernel

/-- `pgm_io.cpp:92-105`, `read_wrong_format_name` -/
example : holds (do
    let (s, held) ← readPgm 1000 none (.opened (bytes "
    P
    3 2
    10
    0 1 2
    3 4 5
    "))
    pure <| all [
      held.isNone,
      s.fail]
    ) = true := by decide +kernel

/-- `pgm_io.cpp:107-120`, `read_big_max_value` -/
example : holds (do
    let (s, held) ← readPgm 1000 none (.opened (bytes "
    P2
    3 2
    65537
    0 1 2
    3 4 5
    "))
    pure <| all [
      held.isNone,
      s.fail]
    ) = true := by decide +kernel

/-- `pgm_io.cpp:122-135`, `read_incomplete_data` -/
example : holds (do
    let (s, held) ← readPgm 1000 none (.opened (bytes "
    P2
    3 2
    65537
    0 1 2
    3 4
    "))
    pure <| all [
      held.isNone,
      s.fail]
    ) = true := by decide +kernel

/-- `pgm_io.cpp:137-150`, `read_redundant_data` -/
example : holds (do
    let (s, held) ← readPgm 1000 none (.opened (bytes "
    P2
    3 2
    65537
    0 1 2
    3 4 5 6
    "))
    pure <| all [
      held.isNone,
      s.fail]
    ) = true := by decide +kernel

/-- `pgm_io.cpp:152-165`, `read_wrong_max_value` -/
example : holds (do
    let (s, held) ← readPgm 1000 none (.opened (bytes "
    P2
    3 2
    -1
    0 1 2
    3 4 5
    "))
    pure <| all [
      held.isNone,
      s.fail]
    ) = true := by decide +kernel

/-- `pgm_io.cpp:167-180`, `read_intensity_letter` -/
example : holds (do
    let (s, held) ← readPgm 1000 none (.opened (bytes "
    P2
    3 2
    5
    p 1 2
    3 4 5
    "))
    pure <| all [
      held.isNone,
      s.fail]
    ) = true := by decide +kernel

/-- `pgm_io.cpp:182-199`, `write_image` -/
example : holds (do
    let out ← writePgm (some ⟨3, 2, 5, #[0, 1, 2, 3, 4, 5]⟩)
    pure (out == bytes "P2
3 2
5
0 1 2
3 4 5
")
    ) = true := by decide +kernel

/-- `pgm_io.cpp:201-210`, `write_no_image` -/
example : holds (do
    let out ← writePgm none
    pure (out == [])
    ) = true := by decide +kernel

def read_write_image_text : String := "P2
3 2
5
0 1 2
3 4 5
"

/-- `pgm_io.cpp:212-235`, `read_write_image` -/
example : holds (do
    let (s, held) ← readPgm 1000 none (.opened (bytes read_write_image_text))
    let some image := held | pure false
    let out ← writePgm held
    pure <| all [
      !s.fail,
      image.width == 3,
      image.height == 2,
      image.maxValue == 5,
      out == bytes read_write_image_text]
    ) = true := by decide +kernel

def read_write_imagelong_text : String := "P2
13 3
65536
65536 65536 65536 65536 65536 65536 65536 65536 65536 65536 65536
65536 65536
1 2 3 4 5 6 7 8 9 10 11
12 13
0 1 100 1000 10000 5 50 500 5000 50000 65535
0 2
"

/-- `pgm_io.cpp:237-265`, `read_write_imagelong` -/
example : holds (do
    let (s, held) ← readPgm 1000 none (.opened (bytes read_write_imagelong_text))
    let some image := held | pure false
    let out ← writePgm held
    pure <| all [
      !s.fail,
      image.width == 13,
      image.height == 3,
      image.maxValue == 65536,
      out == bytes read_write_imagelong_text]
    ) = true := by decide +kernel

end SP.Tests
