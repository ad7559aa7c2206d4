import Verif.Model.Types
/-!
# Specification vocabulary: the grid of pixels and its nodes

Coordinates are natural numbers; `w`, `h`, `levels` are the dimensions of a graph.
-/
namespace SP
variable {F : Type}

/-- number of columns of the right image -/
def DisparityGraph.w (g : DisparityGraph F) : Nat := g.right.width.toNat
/-- number of rows of the right image -/
def DisparityGraph.h (g : DisparityGraph F) : Nat := g.right.height.toNat
/-- number of disparity levels -/
def DisparityGraph.levels (g : DisparityGraph F) : Nat := g.disparityLevels.toNat

/-- The pixel lies inside the image. -/
def Image.Inside (img : Image) (p : Pixel) : Prop :=
  p.x.toNat < img.width.toNat ∧ p.y.toNat < img.height.toNat

/-- The images have the same positive dimensions; the numbers of levels is positive and not greater than the width. -/
structure DisparityGraph.Dims (g : DisparityGraph F) : Prop where
  width_eq : g.left.width = g.right.width
  height_eq : g.left.height = g.right.height
  width_pos : 0 < g.w
  height_pos : 0 < g.h
  levels_pos : 0 < g.levels
  levels_le : g.levels ≤ g.w

/-- What the functions of the library rely on: dimensions agree, the arrays have the sizes of the grid, and these sizes
are representable. -/
structure DisparityGraph.Valid (g : DisparityGraph F) : Prop extends g.Dims where
  left_size : g.left.data.size = g.w * g.h
  right_size : g.right.data.size = g.w * g.h
  rep_size : g.reparametrization.size = g.w * g.h * 4 * g.levels
  fits : g.w * g.h * 4 * g.levels < 18446744073709551616

/-- Two pixels are straight neighbors: they share a side. Stated on integers, without wrap-around. -/
def StraightNeighbors (p q : Pixel) : Prop :=
  (p.y = q.y ∧ (p.x.toNat + 1 = q.x.toNat ∨ q.x.toNat + 1 = p.x.toNat)) ∨
  (p.x = q.x ∧ (p.y.toNat + 1 = q.y.toNat ∨ q.y.toNat + 1 = p.y.toNat))

instance (p q : Pixel) : Decidable (StraightNeighbors p q) := by unfold StraightNeighbors; infer_instance

/-- A node: its pixel is in the right image, its disparity is less than the number of levels and the matching pixel
`(x + d, y)` is in the left image. -/
def NodeIn (g : DisparityGraph F) (n : Node) : Prop :=
  n.pixel.x.toNat < g.w ∧ n.pixel.y.toNat < g.h ∧ n.disparity.toNat < g.levels ∧
  n.pixel.x.toNat + n.disparity.toNat < g.left.width.toNat

/-- An edge: nodes of two neighboring pixels; in a row the matching columns of the left image keep the order of pixels. -/
def EdgeIn (g : DisparityGraph F) (e : Edge) : Prop :=
  NodeIn g e.node ∧ NodeIn g e.neighbor ∧ StraightNeighbors e.node.pixel e.neighbor.pixel ∧
  (e.node.pixel.x.toNat < e.neighbor.pixel.x.toNat →
    e.node.pixel.x.toNat + e.node.disparity.toNat
      ≤ e.neighbor.pixel.x.toNat + e.neighbor.disparity.toNat) ∧
  (e.neighbor.pixel.x.toNat < e.node.pixel.x.toNat →
    e.neighbor.pixel.x.toNat + e.neighbor.disparity.toNat
      ≤ e.node.pixel.x.toNat + e.node.disparity.toNat)

/-- The reversed edge. -/
def Edge.reverse (e : Edge) : Edge := { node := e.neighbor, neighbor := e.node }

end SP
