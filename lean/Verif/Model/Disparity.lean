import Verif.Model.Indexing
/-!
# `lib/image.cpp` and `lib/disparity_graph.cpp`
-/
namespace SP
open FloatOps

/-- `image_valid`, `image.cpp:33-47`. The loop counter is `unsigned` (32 bits) while the bound is a 64-bit product, which
may wrap around. If the loop did not end after `width * height` (as computed) iterations, the counter has gone through
all its values without reaching the bound and without finding a bad pixel, so it never ends: the fuel is exact. -/
def imageValid (image : Image) : M Bool :=
  if image.maxValue = 0 ∨ image.width = 0 ∨ image.height = 0 then .ok false
  else
    cfor (image.width * image.height).toNat (0 : UInt32)
      (fun i => decide (i.toUInt64 < image.width * image.height)) (fun i => i + 1)
      (fun i _ =>
        match rd image.data i.toUInt64 with
        | .error e => .error e
        | .ok v => if v > image.maxValue then .ok (false, true) else .ok (true, false))
      true

variable {F : Type} [FloatOps F]

/-- `DisparityGraph::DisparityGraph`, `disparity_graph.cpp:64-181`. The variable parts of the messages are dropped.
Failure to allocate is not modelled. -/
def mkDisparityGraph (left right : Image) (disparity_levels : UInt64) (cleanness smoothness : F) :
    M (DisparityGraph F) := do
  if !(← imageValid left) then
    throw (.exc (.invalidArgument "Left image is invalid."))
  if !(← imageValid right) then
    throw (.exc (.invalidArgument "Right image is invalid."))
  if disparity_levels ≤ 1 then
    throw (.exc (.invalidArgument "Number of disparity levels should be greater than one."))
  if disparity_levels > left.width then
    throw (.exc (.invalidArgument
      "Number of disparity levels should not be greater than width of the left image."))
  if left.width ≠ right.width then
    throw (.exc (.invalidArgument "Number of columns of the images should be equal."))
  if left.height ≠ right.height then
    throw (.exc (.invalidArgument "Number of rows of the images should be equal."))
  if left.maxValue ≠ right.maxValue then
    throw (.exc (.invalidArgument "Maximal intensity of the images should be the same."))
  if lt cleanness zero then
    throw (.exc (.invalidArgument "Cleanness weight should not be negative."))
  if lt smoothness zero then
    throw (.exc (.invalidArgument "Smoothness weight should not be negative."))
  if lt cleanness epsilon && lt smoothness epsilon then
    throw (.exc (.invalidArgument
      "Either cleanness or smoothness, or both, should be creater than zero."))
  return {
    left := left
    right := right
    disparityLevels := disparity_levels
    cleanness := cleanness
    smoothness := smoothness
    reparametrization :=
      Array.replicate (left.width * left.height * NEIGHBORS_COUNT * disparity_levels).toNat zero }

/-- `edge_penalty`, `disparity_graph.cpp:184-191`. -/
def edgePenalty (graph : DisparityGraph F) (edge : Edge) : M F := do
  let r₁ ← reparametrizationValueSlow graph edge
  let r₂ ← reparametrizationValue graph edge.neighbor edge.node.pixel
  return sub
    (sub
      (mul graph.smoothness
        (sqr (sub (ofNat edge.node.disparity.toNat) (ofNat edge.neighbor.disparity.toNat))))
      r₁)
    r₂

/-- `node_penalty`, `disparity_graph.cpp:193-206`. -/
def nodePenalty (graph : DisparityGraph F) (node : Node) : M F := do
  let left_pixel : Pixel := { x := node.pixel.x + node.disparity, y := node.pixel.y }
  let vr ← pixelValue graph.right node.pixel
  let vl ← pixelValue graph.left left_pixel
  let r₀ ← reparametrizationValueFast graph node 0
  let r₁ ← reparametrizationValueFast graph node 1
  let r₂ ← reparametrizationValueFast graph node 2
  let r₃ ← reparametrizationValueFast graph node 3
  return add (add (add (add
    (mul graph.cleanness (sqr (sub (ofNat vr.toNat) (ofNat vl.toNat))))
    r₀) r₁) r₂) r₃

end SP
