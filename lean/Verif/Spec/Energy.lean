import Verif.Spec.Penalty
import Verif.Spec.FloatInstances
import Mathlib.Algebra.BigOperators.Group.Finset.Basic
import Mathlib.Algebra.Order.BigOperators.Group.Finset
/-!
# Energy of a labeling
-/
namespace SP
open Finset

variable {F : Type} [FloatOps F] [CommRing F] [LinearOrder F]

/-- Total penalty of a labeling: all nodes and, once each, all edges (towards the right and the bottom neighbor). -/
def DisparityGraph.energy (g : DisparityGraph F) (L : Nat → Nat → Nat) : F :=
  ∑ x ∈ range g.w, ∑ y ∈ range g.h, (g.nodeQ x y (L x y)
    + (if x + 1 < g.w then g.edgeQ x y 0 (L x y) (L (x + 1) y) else 0)
    + (if y + 1 < g.h then g.edgeQ x y 2 (L x y) (L x (y + 1)) else 0))

/-- Sum of the stored lowest penalties of pixels and of right and bottom neighborhoods. -/
def LowestPenalties.bound (p : LowestPenalties F) : F :=
  ∑ x ∈ range p.graph.w, ∑ y ∈ range p.graph.h, (p.pixelMin x y
    + (if x + 1 < p.graph.w then p.edgeMin x y 0 else 0)
    + (if y + 1 < p.graph.h then p.edgeMin x y 2 else 0))

/-- Elements of the reparametrization for neighbors that do not exist are zero. -/
def DisparityGraph.BoundaryZero (g : DisparityGraph F) : Prop :=
  ∀ x y d k, x < g.w → y < g.h → d < g.levels → k < 4 → ¬ HasNb g.w g.h x y k → g.phi x y d k = 0

end SP
