import Verif.Spec.Best
/-!
# Specification: images of one row

Nothing here refers to the code.
-/
namespace SP
open FloatOps

/-- Disparities of the column `x` of a row from which one can go on to the right for `k` columns, or to the end of the row. -/
def RowAhead (w : Nat) (E : EdgeRel) (S : NodeSet) : Nat → Nat → Nat → Prop
  | 0, x, d => S x 0 d
  | k + 1, x, d => S x 0 d ∧ (x + 1 < w → ∃ d', E x 0 0 d d' ∧ RowAhead w E S k (x + 1) d')

/-- Disparities of the column `x` that are compatible with the label of the previous column, and from which one can go on to the right for
`x + 1` columns. -/
def RowCandidate (w : Nat) (E : EdgeRel) (S : NodeSet) (L : Nat → Nat → Nat) (x d : Nat) : Prop :=
  RowAhead w E S (x + 1) x d ∧ (0 < x → E x 0 1 d (L (x - 1) 0))

section
variable {F : Type} [FloatOps F]

/-- `L` takes in each column the best of the candidates, the lowest one among equals. -/
def RowBest (w : Nat) (E : EdgeRel) (S : NodeSet) (q : Nat → Nat → Nat → F) (L : Nat → Nat → Nat) (x : Nat) : Prop :=
  RowCandidate w E S L x (L x 0) ∧ ∀ d, RowCandidate w E S L x d →
    le (q x 0 (L x 0)) (q x 0 d) = true ∧ (d < L x 0 → lt (q x 0 (L x 0)) (q x 0 d) = true)

/-- Nodes that are worse than other nodes of the pixel at most by `t`. -/
def DisparityGraph.nodesAt (g : DisparityGraph F) (t : F) : NodeSet := fun x y d =>
  g.IsNode x y d ∧ ∀ d', g.IsNode x y d' → le (sub (g.nodeQ x y d) (g.nodeQ x y d')) t = true

/-- Edges that are worse than other edges between the same pixels at most by `t`. -/
def DisparityGraph.edgesAt (g : DisparityGraph F) (t : F) : EdgeRel := fun x y k d d' =>
  g.IsEdge x y k d d' ∧ ∀ e e', g.IsEdge x y k e e' → le (sub (g.edgeQ x y k d d') (g.edgeQ x y k e e')) t = true

/-- The map found in a row of pixels, going from left to right: in each column the best of the nodes that are compatible with
the choice in the previous column and can be continued to the right for a number of columns that grows with `x`. -/
structure RowMap (g : DisparityGraph F) (t : F) (im : Image) : Prop extends BestMap g t im where
  greedy : ∀ x, x < g.w → RowBest g.w (g.edgesAt t) (g.nodesAt t) g.nodeQ (fun x y => im.at x y) x

end
end SP
