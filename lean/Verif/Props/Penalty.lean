import Verif.Lemmas.Fresh
import Verif.Spec.Energy
import Verif.Lemmas.Disparity
import Verif.Props.Disparity
/-!
# Properties C12–C17: penalties, reparametrization, lowest penalties
-/
namespace SP
open FloatOps Finset

section C12
variable {F : Type} [FloatOps F] [LawfulFloat F] {g : DisparityGraph F}

/-- **C12**, nodes. -/
theorem C12_node_penalty_formula (hg : g.Fresh) {x y d : Nat} (hn : g.IsNode x y d) :
    Ok (nodePenalty g (mkNode x y d)) fun q =>
      q = mul g.cleanness (sqr (sub (ofNat (g.right.at x y)) (ofNat (g.left.at (x + d) y)))) ∧
      le zero q = true := by
  rw [nodePenalty_mk hg.toValid hn]
  exact Ok.pure ⟨nodeQ_fresh hg.phi_zero x y d, nodeQ_nonneg hg x y d⟩

/-- **C12**, edges. -/
theorem C12_edge_penalty_formula (hg : g.Fresh) {x y k d d' : Nat}
    (hk : HasNb g.w g.h x y k) (hd : d < g.levels) (hd' : d' < g.levels) :
    Ok (edgePenalty g ⟨mkNode x y d, mkNode (nbx x k) (nby y k) d'⟩) fun q =>
      q = mul g.smoothness (sqr (sub (ofNat d) (ofNat d'))) ∧ le zero q = true := by
  rw [edgePenalty_mk hg.toValid hk hd hd']
  exact Ok.pure ⟨edgeQ_fresh hg.phi_zero x y k d d', edgeQ_nonneg hg x y k d d'⟩

/-- **C12**: the constructor makes a fresh graph. -/
theorem C12_constructor_makes_fresh_graph {left right : Image} {levels : UInt64} {cleanness smoothness : F}
    (hl : left.Sized) (hr : right.Sized) (ha : AcceptedInput left right levels cleanness smoothness)
    (hfit : left.width.toNat * left.height.toNat * 4 * levels.toNat < 18446744073709551616) :
    Ok (mkDisparityGraph left right levels cleanness smoothness) DisparityGraph.Fresh := by
  rw [(mkDisparityGraph_mk hl hr).1 ha]
  exact Ok.pure (freshGraph_fresh hl hr ha hfit)

end C12

/-- A fresh graph: images of size 3 × 1, two disparity levels. -/
def exampleGraph : DisparityGraph Int := freshGraph (img 3 1 3 [1, 0, 2]) (img 3 1 3 [0, 0, 3]) 2 1 0

theorem exampleGraph_fresh : exampleGraph.Fresh :=
  freshGraph_fresh ⟨rfl, by decide⟩ ⟨rfl, by decide⟩ exampleAccepted (by decide)

example : exampleGraph.IsNode 1 0 1 := ⟨by decide, by decide, by decide, by decide⟩
example : HasNb exampleGraph.w exampleGraph.h 1 0 0 := ⟨by decide, by decide, .inl ⟨rfl, by decide⟩⟩
example : nodePenalty exampleGraph (mkNode 1 0 1) = .ok 4 := by decide

section Exact
variable {F : Type} [FloatOps F] [CommRing F] [LinearOrder F] [IsStrictOrderedRing F] [ExactFloat F]
  {g : DisparityGraph F}

theorem edgeQ_symm {x y k d d' : Nat} (hk : HasNb g.w g.h x y k) :
    g.edgeQ x y k d d' = g.edgeQ (nbx x k) (nby y k) (opp k) d' d := by
  unfold DisparityGraph.edgeQ
  rw [hk.nbx_opp, hk.nby_opp, hk.opp_opp]
  simp only [ExactFloat.sub_eq, ExactFloat.mul_eq, ExactFloat.sqr_eq]
  ring

/-- **C13**. In exact arithmetic the penalty of the reversed edge is the same, for any reparametrization. -/
theorem C13_edge_penalty_symmetric (hg : g.Valid) {x y k d d' : Nat}
    (hk : HasNb g.w g.h x y k) (hd : d < g.levels) (hd' : d' < g.levels) :
    let e : Edge := ⟨mkNode x y d, mkNode (nbx x k) (nby y k) d'⟩
    Ok (edgePenalty g e) fun q => edgePenalty g e.reverse = .ok q := by
  simp only
  rw [edgePenalty_mk hg hk hd hd']
  refine Ok.pure ?_
  have h := edgePenalty_mk hg hk.symm hd' hd
  rw [hk.nbx_opp, hk.nby_opp] at h
  rw [edgeQ_symm hk]
  exact h

/-- Penalties without reparametrization. -/
theorem nodeQ_split (x y d : Nat) :
    g.nodeQ x y d = g.cleanness * ((g.right.at x y : F) - g.left.at (x + d) y) ^ 2
      + (g.phi x y d 0 + g.phi x y d 1 + g.phi x y d 2 + g.phi x y d 3) := by
  unfold DisparityGraph.nodeQ
  simp only [ExactFloat.sub_eq, ExactFloat.mul_eq, ExactFloat.sqr_eq, ExactFloat.add_eq, ExactFloat.ofNat_eq]
  ring

theorem edgeQ_split (x y k d d' : Nat) :
    g.edgeQ x y k d d' = g.smoothness * ((d : F) - d') ^ 2
      - g.phi x y d k - g.phi (nbx x k) (nby y k) d' (opp k) := by
  unfold DisparityGraph.edgeQ
  simp only [ExactFloat.sub_eq, ExactFloat.mul_eq, ExactFloat.sqr_eq, ExactFloat.ofNat_eq]
  ring

/-- The energy according to the documented formulas, without reparametrization. -/
def DisparityGraph.plainEnergy (g : DisparityGraph F) (L : Nat → Nat → Nat) : F :=
  ∑ x ∈ range g.w, ∑ y ∈ range g.h,
    (g.cleanness * ((g.right.at x y : F) - g.left.at (x + L x y) y) ^ 2
      + (if x + 1 < g.w then g.smoothness * ((L x y : F) - L (x + 1) y) ^ 2 else 0)
      + (if y + 1 < g.h then g.smoothness * ((L x y : F) - L x (y + 1)) ^ 2 else 0))

theorem sum_shift (n : Nat) (a b : Nat → F) (hn : 0 < n) (ha : a (n - 1) = 0) (hb : b 0 = 0) :
    ∑ x ∈ range n, (a x + b x) = ∑ x ∈ range n, (if x + 1 < n then a x + b (x + 1) else 0) := by
  obtain ⟨m, rfl⟩ : ∃ m, n = m + 1 := ⟨n - 1, by omega⟩
  rw [Finset.sum_add_distrib, Finset.sum_range_succ, Finset.sum_range_succ' b, Finset.sum_range_succ]
  simp only [Nat.add_sub_cancel] at ha
  rw [ha, hb, if_neg (by omega), add_zero, add_zero, add_zero, ← Finset.sum_add_distrib]
  refine Finset.sum_congr rfl fun x hx => ?_
  rw [Finset.mem_range] at hx
  rw [if_pos (by omega)]

theorem energy_eq_plain (hg : g.Valid) (hz : g.BoundaryZero) (L : Nat → Nat → Nat)
    (hL : ∀ x y, x < g.w → y < g.h → L x y < g.levels) :
    g.energy L = g.plainEnergy L := by
  have hw := hg.width_pos
  have hh := hg.height_pos
  let A : F := ∑ x ∈ range g.w, ∑ y ∈ range g.h, (g.phi x y (L x y) 0 + g.phi x y (L x y) 1)
  let B : F := ∑ x ∈ range g.w, ∑ y ∈ range g.h, (g.phi x y (L x y) 2 + g.phi x y (L x y) 3)
  let A' : F := ∑ x ∈ range g.w, ∑ y ∈ range g.h,
    (if x + 1 < g.w then g.phi x y (L x y) 0 + g.phi (x + 1) y (L (x + 1) y) 1 else 0)
  let B' : F := ∑ x ∈ range g.w, ∑ y ∈ range g.h,
    (if y + 1 < g.h then g.phi x y (L x y) 2 + g.phi x (y + 1) (L x (y + 1)) 3 else 0)
  have hA : A = A' := by
    simp only [A, A']
    rw [Finset.sum_comm, Finset.sum_comm (s := range g.w)]
    refine Finset.sum_congr rfl fun y hy => ?_
    rw [Finset.mem_range] at hy
    refine sum_shift g.w (fun x => g.phi x y (L x y) 0) (fun x => g.phi x y (L x y) 1) hw ?_ ?_
    · refine hz _ _ _ _ (by omega) hy (hL _ _ (by omega) hy) (by omega) ?_
      unfold HasNb; omega
    · refine hz _ _ _ _ (by omega) hy (hL _ _ (by omega) hy) (by omega) ?_
      unfold HasNb; omega
  have hB : B = B' := by
    simp only [B, B']
    refine Finset.sum_congr rfl fun x hx => ?_
    rw [Finset.mem_range] at hx
    refine sum_shift g.h (fun y => g.phi x y (L x y) 2) (fun y => g.phi x y (L x y) 3) hh ?_ ?_
    · refine hz _ _ _ _ hx (by omega) (hL _ _ hx (by omega)) (by omega) ?_
      unfold HasNb; omega
    · refine hz _ _ _ _ hx (by omega) (hL _ _ hx (by omega)) (by omega) ?_
      unfold HasNb; omega
  have key : g.energy L = g.plainEnergy L + A + B - A' - B' := by
    simp only [A, B, A', B', DisparityGraph.energy, DisparityGraph.plainEnergy, ← Finset.sum_add_distrib,
      ← Finset.sum_sub_distrib]
    refine Finset.sum_congr rfl fun x _ => Finset.sum_congr rfl fun y _ => ?_
    rw [nodeQ_split, edgeQ_split, edgeQ_split]
    have n1 : nbx x 0 = x + 1 := rfl
    have n2 : nby y 0 = y := rfl
    have n3 : opp 0 = 1 := rfl
    have n4 : nbx x 2 = x := rfl
    have n5 : nby y 2 = y + 1 := rfl
    have n6 : opp 2 = 3 := rfl
    rw [n1, n2, n3, n4, n5, n6]
    by_cases h1 : x + 1 < g.w <;> by_cases h2 : y + 1 < g.h <;> simp only [h1, h2, if_true, if_false] <;> ring
  rw [key, hA, hB]
  ring

/-- The energy of a labeling made of the penalties that the program computes: `node_penalty` of all nodes and `edge_penalty` of edges
towards right and bottom neighbors. -/
def DisparityGraph.computedEnergy (g : DisparityGraph F) (L : Nat → Nat → Nat) : F :=
  ∑ x ∈ range g.w, ∑ y ∈ range g.h, (okD 0 (nodePenalty g (mkNode x y (L x y)))
    + (if x + 1 < g.w then okD 0 (edgePenalty g ⟨mkNode x y (L x y), mkNode (x + 1) y (L (x + 1) y)⟩) else 0)
    + (if y + 1 < g.h then okD 0 (edgePenalty g ⟨mkNode x y (L x y), mkNode x (y + 1) (L x (y + 1))⟩) else 0))

/-- The sum of the lowest penalties that the program looks up. -/
def LowestPenalties.computedBound (p : LowestPenalties F) : F :=
  ∑ x ∈ range p.graph.w, ∑ y ∈ range p.graph.h, (okD 0 (lowestPixelPenalty p (mkPixel x y))
    + (if x + 1 < p.graph.w then okD 0 (lowestNeighborhoodPenalty p ⟨mkNode x y 0, mkNode (x + 1) y 0⟩) else 0)
    + (if y + 1 < p.graph.h then okD 0 (lowestNeighborhoodPenalty p ⟨mkNode x y 0, mkNode x (y + 1) 0⟩) else 0))

theorem computedEnergy_eq (hg : g.Valid) {L : Nat → Nat → Nat} (hn : ∀ x y, x < g.w → y < g.h → g.IsNode x y (L x y)) :
    g.computedEnergy L = g.energy L := by
  unfold DisparityGraph.computedEnergy DisparityGraph.energy
  refine Finset.sum_congr rfl fun x hx => Finset.sum_congr rfl fun y hy => ?_
  rw [Finset.mem_range] at hx hy
  have e1 : okD 0 (nodePenalty g (mkNode x y (L x y))) = g.nodeQ x y (L x y) := by rw [nodePenalty_mk hg (hn x y hx hy)]; rfl
  rw [e1]
  congr 1
  · congr 1
    by_cases h : x + 1 < g.w
    · rw [if_pos h, if_pos h]
      have := edgePenalty_mk hg (k := 0) ⟨hx, hy, .inl ⟨rfl, h⟩⟩ (hn x y hx hy).2.2.1 (hn (x + 1) y h hy).2.2.1
      rw [show nbx x 0 = x + 1 from rfl, show nby y 0 = y from rfl] at this
      rw [this]
      rfl
    · rw [if_neg h, if_neg h]
  · by_cases h : y + 1 < g.h
    · rw [if_pos h, if_pos h]
      have := edgePenalty_mk hg (k := 2) ⟨hx, hy, .inr (.inr (.inl ⟨rfl, h⟩))⟩ (hn x y hx hy).2.2.1 (hn x (y + 1) hx h).2.2.1
      rw [show nbx x 2 = x from rfl, show nby y 2 = y + 1 from rfl] at this
      rw [this]
      rfl
    · rw [if_neg h, if_neg h]

theorem computedBound_eq {p : LowestPenalties F} (hp : p.Valid) : p.computedBound = p.bound := by
  unfold LowestPenalties.computedBound LowestPenalties.bound
  refine Finset.sum_congr rfl fun x hx => Finset.sum_congr rfl fun y hy => ?_
  rw [Finset.mem_range] at hx hy
  have e1 : okD 0 (lowestPixelPenalty p (mkPixel x y)) = p.pixelMin x y := by rw [lowestPixelPenalty_mk hp hx hy]; rfl
  rw [e1]
  congr 1
  · congr 1
    by_cases h : x + 1 < p.graph.w
    · rw [if_pos h, if_pos h]
      have := lowestNeighborhoodPenalty_mk hp (k := 0) (d := 0) (d' := 0) ⟨hx, hy, .inl ⟨rfl, h⟩⟩
      rw [show nbx x 0 = x + 1 from rfl, show nby y 0 = y from rfl] at this
      rw [this]
      rfl
    · rw [if_neg h, if_neg h]
  · by_cases h : y + 1 < p.graph.h
    · rw [if_pos h, if_pos h]
      have := lowestNeighborhoodPenalty_mk hp (k := 2) (d := 0) (d' := 0) ⟨hx, hy, .inr (.inr (.inl ⟨rfl, h⟩))⟩
      rw [show nbx x 2 = x from rfl, show nby y 2 = y + 1 from rfl] at this
      rw [this]
      rfl
    · rw [if_neg h, if_neg h]

/-- **C14**. In exact arithmetic the energy of a labeling is the same for any reparametrization whose elements for
neighbors that do not exist are zero: the energy computed by `node_penalty` and `edge_penalty` is the one by the documented formulas,
without reparametrization, thus the same for all such graphs. -/
theorem C14_energy_invariant (hg : g.Valid) (hz : g.BoundaryZero) {L : Nat → Nat → Nat}
    (hL : ∀ x y, x < g.w → y < g.h → g.IsNode x y (L x y)) :
    g.computedEnergy L = g.plainEnergy L ∧
    ∀ g' : DisparityGraph F, g'.Valid → g'.left = g.left → g'.right = g.right → g'.disparityLevels = g.disparityLevels →
      g'.cleanness = g.cleanness → g'.smoothness = g.smoothness → g'.BoundaryZero →
      g'.computedEnergy L = g.computedEnergy L := by
  have key : ∀ g1 : DisparityGraph F, g1.Valid → g1.BoundaryZero → (∀ x y, x < g1.w → y < g1.h → g1.IsNode x y (L x y)) →
      g1.computedEnergy L = g1.plainEnergy L := fun g1 h1 h2 h3 => by
    rw [computedEnergy_eq h1 h3, energy_eq_plain h1 h2 L fun x y hx hy => (h3 x y hx hy).2.2.1]
  refine ⟨key g hg hz hL, fun g' hg' hl hr hd hc hs hz' => ?_⟩
  rw [key g hg hz hL, key g' hg' hz' ?_]
  · unfold DisparityGraph.plainEnergy DisparityGraph.w DisparityGraph.h
    rw [hl, hr, hc, hs]
  · unfold DisparityGraph.IsNode DisparityGraph.w DisparityGraph.h DisparityGraph.levels
    rw [hr, hd]
    exact hL

/-- **C15**. In exact arithmetic the sum of the stored lowest penalties is at most the energy of any labeling made of
existing nodes and edges. -/
theorem C15_lower_bound (hg : g.Valid) :
    Ok (mkLowestPenalties g) fun p => ∀ L : Nat → Nat → Nat,
      (∀ x y, x < g.w → y < g.h → g.IsNode x y (L x y)) →
      (∀ x y k, HasNb g.w g.h x y k → g.IsEdge x y k (L x y) (L (nbx x k) (nby y k))) →
      p.computedBound ≤ g.computedEnergy L := by
  refine (mkLowestPenalties_mk hg).mono ?_
  rintro p ⟨rfl, hv, hp, he⟩ L hn hL
  rw [computedBound_eq hv, computedEnergy_eq hg hn]
  unfold LowestPenalties.bound DisparityGraph.energy
  refine Finset.sum_le_sum fun x hx => Finset.sum_le_sum fun y hy => ?_
  rw [Finset.mem_range] at hx hy
  refine add_le_add (add_le_add ?_ ?_) ?_
  · rw [hp x y hx hy]
    exact (ExactFloat.le_eq _ _).1 (lowPixel_le (hn x y hx hy))
  · by_cases h : x + 1 < p.graph.w
    · rw [if_pos h, if_pos h]
      have hk : HasNb p.graph.w p.graph.h x y 0 := ⟨hx, hy, .inl ⟨rfl, h⟩⟩
      rw [he x y 0 hk]
      exact (ExactFloat.le_eq _ _).1 (lowEdge_le (hL x y 0 hk) (.inl (by omega)))
    · rw [if_neg h, if_neg h]
  · by_cases h : y + 1 < p.graph.h
    · rw [if_pos h, if_pos h]
      have hk : HasNb p.graph.w p.graph.h x y 2 := ⟨hx, hy, .inr (.inr (.inl ⟨rfl, h⟩))⟩
      rw [he x y 2 hk]
      exact (ExactFloat.le_eq _ _).1 (lowEdge_le (hL x y 2 hk) (.inl (by omega)))
    · rw [if_neg h, if_neg h]

end Exact

/-- Graph with a reparametrization given by a function. -/
def graphPhi (w h m levels : UInt64) (left right : List UInt64) (c s : Int) (phi : Nat → Int) : DisparityGraph Int :=
  { graphOf w h m levels left right c s with
    reparametrization := ((List.range (w * h * 4 * levels).toNat).map phi).toArray }

/-- A graph with reparametrization: `φ = 10` for the node `(1, 0, 2)` and its left neighbor, and for `(0, 0, 0)` and its
right neighbor. -/
def leftGraph : DisparityGraph Int := graphPhi 4 1 1 4 [0, 0, 0, 0] [0, 0, 0, 0] 1 1 fun i =>
  if i = ridx 1 4 1 0 2 1 then 10 else if i = ridx 1 4 0 0 0 0 then 10 else 0

theorem leftGraph_valid : leftGraph.Valid := by
  refine ⟨⟨rfl, rfl, ?_, ?_, ?_, ?_⟩, ?_, ?_, ?_, ?_⟩ <;> decide

/-- `φ` is not zero and the hypotheses of C14 hold for it. -/
example : leftGraph.BoundaryZero ∧ leftGraph.phi 1 0 2 1 ≠ 0 := by
  constructor
  · have key : ∀ (x : Fin 4) (y : Fin 1) (d : Fin 4) (k : Fin 4), HasNb 4 1 x.1 y.1 k.1 ∨
        leftGraph.phi x.1 y.1 d.1 k.1 = 0 := by
      unfold HasNb
      decide +kernel
    intro x y d k hx hy hd hk hn
    exact (key ⟨x, hx⟩ ⟨y, hy⟩ ⟨d, hd⟩ ⟨k, hk⟩).resolve_left hn
  · decide +kernel

section Lowest
variable {F : Type} [FloatOps F] [LawfulFloat F] {g : DisparityGraph F}

/-- **C16**. The stored lowest penalty of a pixel is attained by an existing node of the pixel and no existing node of the
pixel has a lower penalty. -/
theorem C16_lowest_pixel_penalty (hg : g.Valid) {x y : Nat} (hx : x < g.w) (hy : y < g.h) :
    Ok (mkLowestPenalties g) fun p => Ok (lowestPixelPenalty p (mkPixel x y)) fun m =>
      (∃ d, g.IsNode x y d ∧ nodePenalty g (mkNode x y d) = .ok m) ∧
      ∀ d, g.IsNode x y d → Ok (nodePenalty g (mkNode x y d)) fun q => le m q = true := by
  refine (mkLowestPenalties_mk hg).mono ?_
  rintro p ⟨rfl, hv, hp, _⟩
  rw [lowestPixelPenalty_mk hv hx hy, hp x y hx hy]
  refine Ok.pure ⟨?_, fun d hd => ?_⟩
  · obtain ⟨d, hd, he⟩ := lowPixel_attained hg hx hy
    exact ⟨d, hd, by rw [he]; exact nodePenalty_mk hg hd⟩
  · rw [nodePenalty_mk hg hd]
    exact Ok.pure (lowPixel_le hd)

/-- **C17**, right, bottom and top neighbors. Full statement: the same for all four directions; it is false for left
neighbors when the reparametrization is not zero, see `C17_left_neighborhood_refuted`. -/
theorem C17_lowest_neighborhood_penalty_partial (hg : g.Valid) {x y k : Nat} (hk : HasNb g.w g.h x y k)
    (hk1 : k ≠ 1) {d₀ d₀' : Nat} :
    Ok (mkLowestPenalties g) fun p =>
      Ok (lowestNeighborhoodPenalty p ⟨mkNode x y d₀, mkNode (nbx x k) (nby y k) d₀'⟩) fun m =>
      (∃ d d', g.IsEdge x y k d d' ∧ edgePenalty g ⟨mkNode x y d, mkNode (nbx x k) (nby y k) d'⟩ = .ok m) ∧
      ∀ d d', g.IsEdge x y k d d' →
        Ok (edgePenalty g ⟨mkNode x y d, mkNode (nbx x k) (nby y k) d'⟩) fun q => le m q = true := by
  refine (mkLowestPenalties_mk hg).mono ?_
  rintro p ⟨rfl, hv, _, hp⟩
  rw [lowestNeighborhoodPenalty_mk hv hk, hp x y k hk]
  refine Ok.pure ⟨?_, fun d d' hd => ?_⟩
  · obtain ⟨d, d', h1, h2, h3, -, he⟩ := lowEdge_attained hg hk
    exact ⟨d, d', ⟨hk, h1, h2, h3 hk1⟩, by rw [he]; exact edgePenalty_mk hg hk h1.2.2.1 h2.2.2.1⟩
  · rw [edgePenalty_mk hg hk hd.2.1.2.2.1 hd.2.2.1.2.2.1]
    exact Ok.pure (lowEdge_le hd (.inl hk1))

/-- **C17** on a fresh graph holds for all four directions. -/
theorem C17_lowest_neighborhood_penalty_fresh (hg : g.Fresh) {x y k : Nat} (hk : HasNb g.w g.h x y k)
    {d₀ d₀' : Nat} :
    Ok (mkLowestPenalties g) fun p =>
      Ok (lowestNeighborhoodPenalty p ⟨mkNode x y d₀, mkNode (nbx x k) (nby y k) d₀'⟩) fun m =>
      (∃ d d', g.IsEdge x y k d d' ∧ edgePenalty g ⟨mkNode x y d, mkNode (nbx x k) (nby y k) d'⟩ = .ok m) ∧
      ∀ d d', g.IsEdge x y k d d' →
        Ok (edgePenalty g ⟨mkNode x y d, mkNode (nbx x k) (nby y k) d'⟩) fun q => le m q = true := by
  refine (mkLowestPenalties_mk hg.toValid).mono ?_
  rintro p ⟨rfl, hv, _, hp⟩
  rw [lowestNeighborhoodPenalty_mk hv hk, hp x y k hk, lowEdge_fresh hg]
  refine Ok.pure ⟨⟨0, 0, ⟨hk, ⟨hk.1, hk.2.1, hg.levels_pos, hk.1⟩,
    ⟨hk.nbx_lt, hk.nby_lt, hg.levels_pos, hk.nbx_lt⟩, by unfold OrderOK; omega⟩, ?_⟩, fun d d' hd => ?_⟩
  · rw [edgePenalty_mk hg.toValid hk hg.levels_pos hg.levels_pos, edgeQ_eq hg]
  · rw [edgePenalty_mk hg.toValid hk hd.2.1.2.2.1 hd.2.2.1.2.2.1]
    exact Ok.pure (edgeQ_nonneg hg _ _ _ _ _)

/-- **C17**: all ways to ask for the lowest penalty of a neighborhood give the same: by the edge, by two pixels, computed anew by pixels and by
the number of the neighbor. -/
theorem C17_variants (hg : g.Valid) {x y k : Nat} (hk : HasNb g.w g.h x y k) {d₀ d₀' : Nat} :
    Ok (mkLowestPenalties g) fun p =>
      Ok (lowestNeighborhoodPenalty p ⟨mkNode x y d₀, mkNode (nbx x k) (nby y k) d₀'⟩) fun m =>
        lowestNeighborhoodPenaltyFast p (mkPixel x y) (mkPixel (nbx x k) (nby y k)) = .ok m ∧
        calculateLowestNeighborhoodPenalty g (mkPixel x y) (mkPixel (nbx x k) (nby y k)) = .ok m ∧
        calculateLowestNeighborhoodPenaltySlow g (mkPixel x y) (UInt64.ofNat k) = .ok m := by
  refine (mkLowestPenalties_mk hg).mono ?_
  rintro p ⟨rfl, hv, _, hp⟩
  have h := lowestNeighborhoodPenalty_mk hv hk (d := d₀) (d' := d₀')
  have hs := calculateLowestNeighborhoodPenaltySlow_mk hg hk
  refine ⟨_, h, h, ?_, ?_⟩
  · rw [hp x y k hk, ← hs]
    unfold calculateLowestNeighborhoodPenalty calculateLowestNeighborhoodPenaltySlow
    rw [neighborByIndex_mk hk]
  · rw [hs, hp x y k hk]

end Lowest

/-- **C17** is false for left neighbors: in `leftGraph` the edge between the nodes `(1, 0, 2)` and `(0, 0, 0)` exists and its
penalty is lower than the stored lowest penalty of the neighborhood. -/
theorem C17_left_neighborhood_refuted :
    leftGraph.Valid ∧
    (do
      let e : Edge := ⟨mkNode 1 0 2, mkNode 0 0 0⟩
      let p ← mkLowestPenalties leftGraph
      let m ← lowestNeighborhoodPenalty p e
      let q ← edgePenalty leftGraph e
      return (edgeExists leftGraph e, lt q m) : M (Bool × Bool)) = .ok (true, true) :=
  ⟨leftGraph_valid, by decide +kernel⟩

end SP
