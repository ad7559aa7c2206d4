import Verif.Spec.Penalty
/-!
# Specification: labelings of a disparity graph

Nothing here refers to the algorithms of the code.
-/
namespace SP
open FloatOps
variable {F : Type} [FloatOps F]

/-- `L` assigns an existing node to each pixel so that neighboring nodes form existing edges, and each chosen node (edge) is
worse than any other node of the pixel (edge of the neighborhood) at most by `t`. -/
def DisparityGraph.FeasibleAt (g : DisparityGraph F) (t : F) (L : Nat → Nat → Nat) : Prop :=
  ∀ x y, x < g.w → y < g.h →
    g.IsNode x y (L x y) ∧
    (∀ d, g.IsNode x y d → le (sub (g.nodeQ x y (L x y)) (g.nodeQ x y d)) t = true) ∧
    ∀ k, HasNb g.w g.h x y k →
      g.IsEdge x y k (L x y) (L (nbx x k) (nby y k)) ∧
      ∀ d d', g.IsEdge x y k d d' →
        le (sub (g.edgeQ x y k (L x y) (L (nbx x k) (nby y k))) (g.edgeQ x y k d d')) t = true

end SP
