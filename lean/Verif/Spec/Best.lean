import Verif.Spec.Float
import Verif.Spec.Csp
import Verif.Spec.Labeling
/-!
# The best labeling

Labelings are compared at the first pixel, in the order of columns, where they differ: the better one has the lower penalty of the node
there, or the same penalty and the lower disparity.
-/
namespace SP
open FloatOps
variable {F : Type} [FloatOps F]

/-- `L` is the best of the labelings `P` of an image of the size `w × h`: if another one is the same in all pixels before `(x, y)`, then
its node in `(x, y)` is not better than that of `L`. -/
def LexBest (w h : Nat) (Q : Nat → Nat → Nat → F) (P : (Nat → Nat → Nat) → Prop) (L : Nat → Nat → Nat) : Prop :=
  P L ∧ ∀ L', P L' → ∀ x y, x < w → y < h →
    (∀ x' y', x' < w → y' < h → x' < x ∨ (x' = x ∧ y' < y) → L' x' y' = L x' y') →
    le (Q x y (L x y)) (Q x y (L' x y)) = true ∧ (L' x y < L x y → lt (Q x y (L x y)) (Q x y (L' x y)) = true)

theorem LexBest.congr {w h : Nat} {Q : Nat → Nat → Nat → F} {P P' : (Nat → Nat → Nat) → Prop} {L : Nat → Nat → Nat}
    (hP : ∀ L, P L ↔ P' L) (hL : LexBest w h Q P L) : LexBest w h Q P' L :=
  ⟨(hP L).1 hL.1, fun L' hL' => hL.2 L' ((hP L').2 hL')⟩

/-- There is at most one best labeling. -/
theorem LexBest.unique [LawfulFloat F] {w h : Nat} {Q : Nat → Nat → Nat → F} {P : (Nat → Nat → Nat) → Prop} {L L' : Nat → Nat → Nat}
    (hL : LexBest w h Q P L) (hL' : LexBest w h Q P L') : ∀ x y, x < w → y < h → L x y = L' x y := by
  intro x
  induction x using Nat.strongRecOn with
  | _ x ihx =>
    intro y
    induction y using Nat.strongRecOn with
    | _ y ihy =>
      intro hx hy
      have hb : ∀ x' y', x' < w → y' < h → x' < x ∨ (x' = x ∧ y' < y) → L x' y' = L' x' y' := by
        rintro x' y' hx' hy' (h | ⟨rfl, h⟩)
        · exact ihx x' h y' hx' hy'
        · exact ihy y' h hx' hy'
      obtain ⟨a1, a2⟩ := hL.2 L' hL'.1 x y hx hy fun x' y' h1 h2 h3 => (hb x' y' h1 h2 h3).symm
      obtain ⟨b1, b2⟩ := hL'.2 L hL.1 x y hx hy hb
      rcases Nat.lt_trichotomy (L x y) (L' x y) with h | h | h
      · have := b2 h
        rw [LawfulFloat.lt_iff, a1] at this
        cases this
      · exact h
      · have := a2 h
        rw [LawfulFloat.lt_iff, b1] at this
        cases this

/-- The image `im` is the disparity map for the images of `g`: `t` is the least threshold with a feasible labeling, and `im` is the best of
the labelings feasible at `t`. -/
structure BestMap (g : DisparityGraph F) (t : F) (im : Image) : Prop where
  width : im.width = g.right.width
  height : im.height = g.right.height
  levels : im.maxValue = g.disparityLevels
  size : im.data.size = g.w * g.h
  best : LexBest g.w g.h g.nodeQ (g.FeasibleAt t) (fun x y => im.at x y)
  least : ∀ t' L, g.FeasibleAt t' L → le t t' = true

/-- Nodes that cannot be excluded by looking at neighbors only: each of them is worse than other nodes of the pixel at most by `t`, and
has such a neighbor among the nodes, in each direction, that the edge is worse than other edges at most by `t`. Each pixel has a node. -/
structure DisparityGraph.LocalAt (g : DisparityGraph F) (t : F) (T : NodeSet) : Prop where
  node : ∀ x y d, T x y d → g.IsNode x y d ∧ ∀ d', g.IsNode x y d' → le (sub (g.nodeQ x y d) (g.nodeQ x y d')) t = true
  edge : ∀ x y d, T x y d → ∀ k, HasNb g.w g.h x y k → ∃ d', T (nbx x k) (nby y k) d' ∧ g.IsEdge x y k d d' ∧
    ∀ e e', g.IsEdge x y k e e' → le (sub (g.edgeQ x y k d d') (g.edgeQ x y k e e')) t = true
  alive : AllAlive g.w g.h T

/-- The map is found by the choice of the best node in one pixel after another: in each pixel it takes the best of the nodes that cannot be
excluded by looking at neighbors only, given the nodes taken before. -/
structure GreedyMap (g : DisparityGraph F) (t : F) (im : Image) : Prop extends BestMap g t im where
  greedy : ∀ T, g.LocalAt t T → ∀ x y, x < g.w → y < g.h →
    (∀ x' y' d', x' < x ∨ (x' = x ∧ y' < y) → T x' y' d' → d' = im.at x' y') → ∀ d, T x y d →
    le (g.nodeQ x y (im.at x y)) (g.nodeQ x y d) = true ∧
    (d < im.at x y → lt (g.nodeQ x y (im.at x y)) (g.nodeQ x y d) = true)

/-- There is at most one such map. -/
theorem BestMap.unique [LawfulFloat F] {g : DisparityGraph F} {t t' : F} {im im' : Image} (h : BestMap g t im) (h' : BestMap g t' im') : t = t' ∧ im = im' := by
  have ht : t = t' := LawfulFloat.le_antisymm _ _ (h.least _ _ h'.best.1) (h'.least _ _ h.best.1)
  subst ht
  refine ⟨rfl, ?_⟩
  have hat := h.best.unique h'.best
  have hsz : im.data.size = im'.data.size := by rw [h.size, h'.size]
  have hd : im.data = im'.data := by
    refine Array.ext hsz fun i hi hi' => ?_
    have hi0 := hi
    rw [h.size] at hi0
    have hw : 0 < g.w := by
      rcases Nat.eq_zero_or_pos g.w with h0 | h0
      · rw [h0, Nat.zero_mul] at hi0; omega
      · exact h0
    have := hat (i % g.w) (i / g.w) (Nat.mod_lt _ hw) (Nat.div_lt_of_lt_mul hi0)
    unfold Image.at at this
    have e1 : im.width.toNat = g.w := by rw [h.width]; rfl
    have e2 : im'.width.toNat = g.w := by rw [h'.width]; rfl
    have e3 : pidx g.w (i % g.w) (i / g.w) = i := by
      unfold pidx
      exact Nat.mod_add_div i g.w
    rw [e1, e2, e3] at this
    simp only [Array.getD, hi, hi', dif_pos] at this
    exact UInt64.toNat_inj.1 (by simpa using this)
  have hw := h.width.trans h'.width.symm
  have hh := h.height.trans h'.height.symm
  have hm := h.levels.trans h'.levels.symm
  cases im; cases im'
  simp only at hw hh hm hd
  subst hw hh hm hd
  rfl

end SP
