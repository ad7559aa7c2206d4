import Verif.Spec.Labeling
/-!
# Specification: perfect labelings

A labeling that is the best one for each pixel and for each pair of neighbors at once. There may be none. Nothing here refers to thresholds.
-/
namespace SP
open FloatOps
variable {F : Type} [FloatOps F]

/-- In each pixel the node of `L` is the best one, and of equally good nodes it is the first; and no edge is better than that of `L`. -/
structure DisparityGraph.Perfect (g : DisparityGraph F) (L : Nat → Nat → Nat) : Prop where
  node : ∀ x y, x < g.w → y < g.h → g.IsNode x y (L x y) ∧ ∀ d, g.IsNode x y d →
    le (g.nodeQ x y (L x y)) (g.nodeQ x y d) = true ∧ (d < L x y → lt (g.nodeQ x y (L x y)) (g.nodeQ x y d) = true)
  edge : ∀ x y k, HasNb g.w g.h x y k → g.IsEdge x y k (L x y) (L (nbx x k) (nby y k)) ∧
    ∀ d d', g.IsEdge x y k d d' → le (g.edgeQ x y k (L x y) (L (nbx x k) (nby y k))) (g.edgeQ x y k d d') = true

/-- How much a pixel of the right image differs from a pixel of the left one. -/
def DisparityGraph.mismatch (g : DisparityGraph F) (x y d : Nat) : Nat := ((g.right.at x y : Int) - g.left.at (x + d) y).natAbs

/-- The same without arithmetic of `FLOAT`: in each pixel of the right image `L` is the first of the disparities with the most similar pixel of the
left image (the first of all the disparities, if the weight of similarity is zero), and is the same for all pixels (is not, if the weight of
smoothness is zero). -/
structure DisparityGraph.Ideal (g : DisparityGraph F) (cleanness smoothness : Nat) (L : Nat → Nat → Nat) : Prop where
  node : ∀ x y, x < g.w → y < g.h → g.IsNode x y (L x y) ∧ ∀ d, g.IsNode x y d →
    (cleanness = 0 ∨ g.mismatch x y (L x y) ≤ g.mismatch x y d) ∧
    (d < L x y → cleanness ≠ 0 ∧ g.mismatch x y (L x y) < g.mismatch x y d)
  edge : ∀ x y k, HasNb g.w g.h x y k → g.IsEdge x y k (L x y) (L (nbx x k) (nby y k)) ∧ (smoothness = 0 ∨ L x y = L (nbx x k) (nby y k))

end SP
