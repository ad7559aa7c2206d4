/-!
# Specification: constraint satisfaction on a grid

Pixels are pairs of natural numbers `(x, y)` with `x < w`, `y < h`. Each pixel has four possible neighbors, numbered
`0` (right), `1` (left), `2` (down), `3` (up). A set of available nodes says which disparities a pixel may take.
`E x y k d d'` says that disparity `d` of the pixel `(x, y)` is compatible with `d'` of its `k`-th neighbor.
Nothing here refers to the code.
-/
namespace SP

/-- column of the `k`-th neighbor -/
def nbx (x k : Nat) : Nat := if k = 0 then x + 1 else if k = 1 then x - 1 else x
/-- row of the `k`-th neighbor -/
def nby (y k : Nat) : Nat := if k = 2 then y + 1 else if k = 3 then y - 1 else y
/-- the number under which the `k`-th neighbor knows the pixel -/
def opp (k : Nat) : Nat := if k = 0 then 1 else if k = 1 then 0 else if k = 2 then 3 else 2

/-- The `k`-th neighbor of `(x, y)` exists in an image of size `w × h`. -/
def HasNb (w h x y k : Nat) : Prop :=
  x < w ∧ y < h ∧
  ((k = 0 ∧ x + 1 < w) ∨ (k = 1 ∧ 0 < x) ∨ (k = 2 ∧ y + 1 < h) ∨ (k = 3 ∧ 0 < y))

/-- A set of nodes `(x, y, d)`. -/
abbrev NodeSet := Nat → Nat → Nat → Prop

/-- Compatibility of a disparity of a pixel with a disparity of its `k`-th neighbor. -/
abbrev EdgeRel := (x y k d d' : Nat) → Prop

/-- Disparity `d` of the pixel has a compatible node of `S` in each neighbor. -/
def Supported (w h : Nat) (E : EdgeRel) (S : NodeSet) (x y d : Nat) : Prop :=
  ∀ k, HasNb w h x y k → ∃ d', S (nbx x k) (nby y k) d' ∧ E x y k d d'

/-- `L` is a consistent labeling: it takes a node of `S` in each pixel and neighboring nodes are compatible. -/
def Consistent (w h : Nat) (E : EdgeRel) (S : NodeSet) (L : Nat → Nat → Nat) : Prop :=
  ∀ x y, x < w → y < h → S x y (L x y) ∧
    ∀ k, HasNb w h x y k → E x y k (L x y) (L (nbx x k) (nby y k))

/-- Each pixel has a node in `S`. -/
def AllAlive (w h : Nat) (S : NodeSet) : Prop := ∀ x y, x < w → y < h → ∃ d, S x y d

/-- Each node of `S` is supported in `S`. -/
def ArcConsistent (w h : Nat) (E : EdgeRel) (S : NodeSet) : Prop :=
  ∀ x y d, S x y d → Supported w h E S x y d

/-- The set that remains after removing all unsupported nodes of one pixel. -/
def removeUnsupported (w h : Nat) (E : EdgeRel) (S : NodeSet) (px py : Nat) : NodeSet :=
  fun x y d => S x y d ∧ (x = px ∧ y = py → Supported w h E S x y d)

/-- Removing unsupported nodes of the given pixels one after another. -/
def sweep (w h : Nat) (E : EdgeRel) (ps : List (Nat × Nat)) (S : NodeSet) : NodeSet :=
  ps.foldl (fun S p => removeUnsupported w h E S p.1 p.2) S

/-- The largest arc consistent subset of `S`: the union of all of them. -/
def arcClosure (w h : Nat) (E : EdgeRel) (S : NodeSet) : NodeSet :=
  fun x y d => ∃ T : NodeSet, (∀ x y d, T x y d → S x y d) ∧ ArcConsistent w h E T ∧ T x y d

end SP
