import Verif.Spec.Grid
import Verif.Spec.Csp
/-!
# Specification: penalties and the constraint problem stored in a graph

Values of the arrays at grid coordinates, the documented formulas of penalties, and the constraint problem of a
`ConstraintGraph`.
-/
namespace SP
open FloatOps

/-- index of a pixel: images are stored row by row -/
def pidx (w x y : Nat) : Nat := x + w * y
/-- index of a node: columns, then rows, then disparities -/
def nidx (h levels x y d : Nat) : Nat := d + levels * (y + h * x)
/-- index of a neighborhood: columns, then rows, then directions -/
def hidx (h x y k : Nat) : Nat := k + 4 * (y + h * x)
/-- index of a reparametrization element: columns, then directions, then disparities, then rows -/
def ridx (h levels x y d k : Nat) : Nat := y + h * (d + levels * (k + 4 * x))

/-- The node of the library for grid coordinates. -/
def mkNode (x y d : Nat) : Node :=
  { pixel := { x := UInt64.ofNat x, y := UInt64.ofNat y }, disparity := UInt64.ofNat d }

/-- The pixel of the library for grid coordinates. -/
def mkPixel (x y : Nat) : Pixel := { x := UInt64.ofNat x, y := UInt64.ofNat y }

/-- intensity of a pixel -/
def Image.at (img : Image) (x y : Nat) : Nat := (img.data.getD (pidx img.width.toNat x y) 0).toNat

variable {F : Type} [FloatOps F]

/-- element of reparametrization for the node `(x, y, d)` and its `k`-th neighbor -/
def DisparityGraph.phi (g : DisparityGraph F) (x y d k : Nat) : F :=
  g.reparametrization.getD (ridx g.h g.levels x y d k) zero

/-- penalty of the node `(x, y, d)` -/
def DisparityGraph.nodeQ (g : DisparityGraph F) (x y d : Nat) : F :=
  add (add (add (add
    (mul g.cleanness (sqr (sub (ofNat (g.right.at x y)) (ofNat (g.left.at (x + d) y)))))
    (g.phi x y d 0)) (g.phi x y d 1)) (g.phi x y d 2)) (g.phi x y d 3)

/-- penalty of the edge between `(x, y, d)` and the node `d'` of its `k`-th neighbor -/
def DisparityGraph.edgeQ (g : DisparityGraph F) (x y k d d' : Nat) : F :=
  sub (sub (mul g.smoothness (sqr (sub (ofNat d) (ofNat d')))) (g.phi x y d k))
    (g.phi (nbx x k) (nby y k) d' (opp k))

/-- The ordering constraint: matching columns of horizontally adjacent pixels do not go backwards. -/
def OrderOK (k d d' : Nat) : Prop := (k = 0 → d ≤ d' + 1) ∧ (k = 1 → d' ≤ d + 1)

instance (k d d' : Nat) : Decidable (OrderOK k d d') := by unfold OrderOK; infer_instance

/-- `(x, y, d)` is a node of the graph. -/
def DisparityGraph.IsNode (g : DisparityGraph F) (x y d : Nat) : Prop :=
  x < g.w ∧ y < g.h ∧ d < g.levels ∧ x + d < g.w

/-- `(x, y, d)` and `d'` of the `k`-th neighbor form an edge of the graph. -/
def DisparityGraph.IsEdge (g : DisparityGraph F) (x y k d d' : Nat) : Prop :=
  HasNb g.w g.h x y k ∧ g.IsNode x y d ∧ g.IsNode (nbx x k) (nby y k) d' ∧ OrderOK k d d'

/-- stored lowest penalty of a pixel -/
def LowestPenalties.pixelMin (p : LowestPenalties F) (x y : Nat) : F :=
  p.pixels.getD (pidx p.graph.w x y) zero

/-- stored lowest penalty of a neighborhood -/
def LowestPenalties.edgeMin (p : LowestPenalties F) (x y k : Nat) : F :=
  p.neighborhoods.getD (hidx p.graph.h x y k) zero

/-- The tables have the sizes of the grid of the graph. -/
structure LowestPenalties.Valid (p : LowestPenalties F) : Prop where
  graph : p.graph.Valid
  pixels_size : p.pixels.size = p.graph.w * p.graph.h
  neighborhoods_size : p.neighborhoods.size = 4 * (p.graph.h * p.graph.w)

/-- A constraint graph whose parts belong together and have matching sizes. -/
structure ConstraintGraph.Valid (c : ConstraintGraph F) : Prop where
  lowest : c.lowestPenalties.Valid
  same : c.lowestPenalties.graph = c.disparityGraph
  size : c.nodesAvailability.size = c.disparityGraph.w * c.disparityGraph.h * c.disparityGraph.levels

/-- number of columns -/
def ConstraintGraph.w (c : ConstraintGraph F) : Nat := c.disparityGraph.w
/-- number of rows -/
def ConstraintGraph.h (c : ConstraintGraph F) : Nat := c.disparityGraph.h
/-- number of disparity levels -/
def ConstraintGraph.levels (c : ConstraintGraph F) : Nat := c.disparityGraph.levels

/-- The set of available nodes. -/
def ConstraintGraph.Av (c : ConstraintGraph F) : NodeSet := fun x y d =>
  x < c.w ∧ y < c.h ∧ d < c.levels ∧ c.nodesAvailability.getD (nidx c.h c.levels x y d) false = true

/-- Compatibility: an edge whose penalty exceeds the stored lowest one at most by the threshold. -/
def ConstraintGraph.E (c : ConstraintGraph F) : EdgeRel := fun x y k d d' =>
  c.disparityGraph.IsEdge x y k d d' ∧
  le (sub (c.disparityGraph.edgeQ x y k d d') (c.lowestPenalties.edgeMin x y k)) c.threshold = true

/-- Only nodes of the graph are available (no flag is set for `x + d ≥ width`). -/
def ConstraintGraph.Proper (c : ConstraintGraph F) : Prop :=
  ∀ x y d, c.Av x y d → c.disparityGraph.IsNode x y d

/-- Everything but availability is the same. -/
def ConstraintGraph.Same (c c' : ConstraintGraph F) : Prop :=
  c'.disparityGraph = c.disparityGraph ∧ c'.lowestPenalties = c.lowestPenalties ∧ c'.threshold = c.threshold

end SP
