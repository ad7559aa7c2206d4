import Verif.Lemmas.Access
import Verif.Props.Indexing
/-!
# Refinement of the functions of `constraint_graph.cpp`
-/
set_option linter.unusedSectionVars false

namespace SP
open FloatOps
variable {F : Type} [FloatOps F]

/-! ## Loop conditions -/

theorem cond_two {x k : Nat} {W L : UInt64} (hx : x + k < 18446744073709551616) :
    (decide (UInt64.ofNat x + UInt64.ofNat k < W) && decide (UInt64.ofNat k < L))
      = decide (k < min L.toNat (W.toNat - x)) := by
  rw [Bool.eq_iff_iff]
  simp only [Bool.and_eq_true, decide_eq_true_eq, UInt64.lt_iff_toNat_lt, UInt64.toNat_add, toNat_ofNat]
  omega

/-! ## Same parts -/

namespace ConstraintGraph
variable {c c' c'' : ConstraintGraph F}

theorem Same.refl (c : ConstraintGraph F) : c.Same c := ⟨rfl, rfl, rfl⟩
theorem Same.trans (h : c.Same c') (h' : c'.Same c'') : c.Same c'' :=
  ⟨h'.1.trans h.1, h'.2.1.trans h.2.1, h'.2.2.trans h.2.2⟩
theorem Same.w_eq (h : c.Same c') : c'.w = c.w := by simp [ConstraintGraph.w, h.1]
theorem Same.h_eq (h : c.Same c') : c'.h = c.h := by simp [ConstraintGraph.h, h.1]
theorem Same.levels_eq (h : c.Same c') : c'.levels = c.levels := by simp [ConstraintGraph.levels, h.1]
theorem Same.E_eq (h : c.Same c') : c'.E = c.E := by unfold ConstraintGraph.E; rw [h.1, h.2.1, h.2.2]

theorem Valid.graph (h : c.Valid) : c.disparityGraph.Valid := h.same ▸ h.lowest.graph

theorem Valid.nidx_lt' (hc : c.Valid) {x y d : Nat} (hx : x < c.w) (hy : y < c.h) (hd : d < c.levels) :
    nidx c.h c.levels x y d < c.nodesAvailability.size ∧
    nidx c.h c.levels x y d < 18446744073709551616 := by
  have h := nidx_lt hx hy hd
  have h2 := hc.graph.bounds.whl
  have h3 : c.w * c.h * c.levels < 18446744073709551616 := h2
  have h4 : c.nodesAvailability.size = c.w * c.h * c.levels := hc.size
  exact ⟨by rw [h4]; exact h, Nat.lt_trans h h3⟩

theorem Valid.bounds (hc : c.Valid) : Bounds c.w c.h c.levels := hc.graph.bounds

theorem Valid.levels_le (hc : c.Valid) : c.levels ≤ c.w := hc.graph.levels_le

theorem setIfInBounds_getD {α : Type} (a : Array α) (i j : Nat) (v f : α) (hi : i < a.size) :
    (a.setIfInBounds i v).getD j f = if i = j then v else a.getD j f := by
  simp only [Array.getD_eq_getD_getElem?, Array.getElem?_setIfInBounds, hi]
  split <;> simp

/-- Writing a flag: what stays and what changes. -/
theorem write_flag (hc : c.Valid) {x y d : Nat} (hx : x < c.w) (hy : y < c.h) (hd : d < c.levels) (b : Bool) :
    let c' : ConstraintGraph F :=
      { c with nodesAvailability := c.nodesAvailability.setIfInBounds (nidx c.h c.levels x y d) b }
    c.Same c' ∧ c'.Valid ∧
    ∀ x' y' d', c'.Av x' y' d' ↔ if x' = x ∧ y' = y ∧ d' = d then b = true else c.Av x' y' d' := by
  intro c'
  refine ⟨⟨rfl, rfl, rfl⟩, ⟨hc.lowest, hc.same, ?_⟩, ?_⟩
  · simp only [c', Array.size_setIfInBounds]; exact hc.size
  · intro x' y' d'
    have h1 := (hc.nidx_lt' hx hy hd).1
    simp only [ConstraintGraph.w, ConstraintGraph.h, ConstraintGraph.levels] at hx hy hd h1
    simp only [Av, c', ConstraintGraph.w, ConstraintGraph.h, ConstraintGraph.levels,
      setIfInBounds_getD _ _ _ _ _ h1]
    constructor
    · rintro ⟨a1, a2, a3, a4⟩
      split
      · rename_i h; obtain ⟨rfl, rfl, rfl⟩ := h; simpa using a4
      · rename_i h
        refine ⟨a1, a2, a3, ?_⟩
        rw [if_neg] at a4
        · exact a4
        · intro he
          obtain ⟨e1, e2, e3⟩ := nidx_inj hy hd a2 a3 he
          exact h ⟨e1.symm, e2.symm, e3.symm⟩
    · split
      · rename_i h; obtain ⟨rfl, rfl, rfl⟩ := h
        intro hb; exact ⟨hx, hy, hd, by simpa using hb⟩
      · rename_i h
        rintro ⟨a1, a2, a3, a4⟩
        refine ⟨a1, a2, a3, ?_⟩
        rw [if_neg]
        · exact a4
        · intro he
          obtain ⟨e1, e2, e3⟩ := nidx_inj hy hd a2 a3 he
          exact h ⟨e1.symm, e2.symm, e3.symm⟩

end ConstraintGraph
open ConstraintGraph

variable {c : ConstraintGraph F}

theorem makeNodeAvailable_mk (hc : c.Valid) {x y d : Nat}
    (hx : x < c.w) (hy : y < c.h) (hd : d < c.levels) :
    Ok (makeNodeAvailable c (mkNode x y d)) fun c' => c.Same c' ∧ c'.Valid ∧
      ∀ x' y' d', c'.Av x' y' d' ↔ (x' = x ∧ y' = y ∧ d' = d) ∨ c.Av x' y' d' := by
  have h1 := hc.nidx_lt' hx hy hd
  obtain ⟨a1, a2, a3⟩ := write_flag hc hx hy hd true
  refine ⟨_, ?_, a1, a2, ?_⟩
  · unfold makeNodeAvailable
    rw [nodeIndex_mk]
    change (do
      let a ← wr c.nodesAvailability (UInt64.ofNat (nidx c.h c.levels x y d)) true
      _) = _
    rw [wr_ofNat h1.2 h1.1]
    rfl
  · intro x' y' d'
    rw [a3]
    split
    · rename_i h; simp [h]
    · rename_i h; simp [h]

theorem makeNodeUnavailable_mk (hc : c.Valid) {x y d : Nat}
    (hx : x < c.w) (hy : y < c.h) (hd : d < c.levels) :
    Ok (makeNodeUnavailable c (mkNode x y d)) fun c' => c.Same c' ∧ c'.Valid ∧
      ∀ x' y' d', c'.Av x' y' d' ↔ c.Av x' y' d' ∧ ¬ (x' = x ∧ y' = y ∧ d' = d) := by
  have h1 := hc.nidx_lt' hx hy hd
  obtain ⟨a1, a2, a3⟩ := write_flag hc hx hy hd false
  refine ⟨_, ?_, a1, a2, ?_⟩
  · unfold makeNodeUnavailable
    rw [nodeIndex_mk]
    change (do
      let a ← wr c.nodesAvailability (UInt64.ofNat (nidx c.h c.levels x y d)) false
      _) = _
    rw [wr_ofNat h1.2 h1.1]
    rfl
  · intro x' y' d'
    rw [a3]
    split
    · rename_i h; simp [h]
    · rename_i h; simp [h]

theorem isNodeAvailable_mk (hc : c.Valid) {x y d : Nat}
    (hx : x < c.w) (hy : y < c.h) (hd : d < c.levels) :
    Ok (isNodeAvailable c (mkNode x y d)) fun b => b = true ↔ c.Av x y d := by
  have h1 := hc.nidx_lt' hx hy hd
  refine ⟨c.nodesAvailability.getD (nidx c.h c.levels x y d) false, ?_, ?_⟩
  · unfold isNodeAvailable
    rw [nodeIndex_mk]
    change rd c.nodesAvailability (UInt64.ofNat (nidx c.h c.levels x y d)) = _
    exact rd_getD h1.2 h1.1
  · simp [Av, hx, hy, hd]

theorem mkNode_toNat {x y d : Nat} (hx : x < 18446744073709551616) (hy : y < 18446744073709551616)
    (hd : d < 18446744073709551616) :
    (mkNode x y d).pixel.x.toNat = x ∧ (mkNode x y d).pixel.y.toNat = y ∧
    (mkNode x y d).disparity.toNat = d :=
  ⟨toNat_ofNat_lt hx, toNat_ofNat_lt hy, toNat_ofNat_lt hd⟩

omit [FloatOps F] in
theorem nodeExists_mk {g : DisparityGraph F} (hg : g.Valid) {x y d : Nat}
    (hx : x < g.w) (hy : y < g.h) (hd : d < g.levels) :
    NodeIn g (mkNode x y d) ↔ g.IsNode x y d := by
  have hb := hg.bounds
  have h1 := hb.bw
  have h2 := hb.bh
  have h3 := hb.bl
  obtain ⟨e1, e2, e3⟩ := mkNode_toNat (x := x) (y := y) (d := d) (by omega) (by omega) (by omega)
  unfold NodeIn DisparityGraph.IsNode
  rw [e1, e2, e3, hg.width_eq]
  exact Iff.rfl

omit [FloatOps F] in
theorem edgeExists_mk {g : DisparityGraph F} (hg : g.Valid) {x y k d d' : Nat}
    (hk : HasNb g.w g.h x y k) (hd : d < g.levels) (hd' : d' < g.levels) :
    edgeExists g ⟨mkNode x y d, mkNode (nbx x k) (nby y k) d'⟩ = true ↔ g.IsEdge x y k d d' := by
  have hb := hg.bounds
  have h1 := hb.bw
  have h2 := hb.bh
  have h3 := hb.bl
  rw [C08_edge_exists_iff g hg.toDims (by omega)]
  unfold EdgeIn DisparityGraph.IsEdge
  simp only
  rw [nodeExists_mk hg hk.1 hk.2.1 hd, nodeExists_mk hg hk.nbx_lt hk.nby_lt hd']
  have hx := hk.1
  have hy := hk.2.1
  have hx' := hk.nbx_lt
  have hy' := hk.nby_lt
  obtain ⟨e1, e2, e3⟩ := mkNode_toNat (x := x) (y := y) (d := d) (by omega) (by omega) (by omega)
  obtain ⟨e4, e5, e6⟩ := mkNode_toNat (x := nbx x k) (y := nby y k) (d := d')
    (by omega) (by omega) (by omega)
  rw [e1, e3, e4, e6]
  have hs : StraightNeighbors (mkNode x y d).pixel (mkNode (nbx x k) (nby y k) d').pixel := by
    unfold StraightNeighbors
    rw [← UInt64.toNat_inj, ← UInt64.toNat_inj, e1, e2, e4, e5]
    obtain ⟨_, _, hk⟩ := hk
    unfold nbx nby
    rcases hk with ⟨rfl, hk⟩ | ⟨rfl, hk⟩ | ⟨rfl, hk⟩ | ⟨rfl, hk⟩ <;> simp <;> omega
  simp only [hs, hk, true_and]
  have : ((x < nbx x k → x + d ≤ nbx x k + d') ∧ (nbx x k < x → nbx x k + d' ≤ x + d)) ↔
      OrderOK k d d' := by
    obtain ⟨_, _, hk⟩ := hk
    unfold nbx OrderOK
    rcases hk with ⟨rfl, hk⟩ | ⟨rfl, hk⟩ | ⟨rfl, hk⟩ | ⟨rfl, hk⟩ <;> simp <;> omega
  rw [this]

theorem isEdgeAvailable_mk (hc : c.Valid) {x y k d d' : Nat}
    (hk : HasNb c.w c.h x y k) (hd : d < c.levels) (hd' : d' < c.levels) :
    Ok (isEdgeAvailable c ⟨mkNode x y d, mkNode (nbx x k) (nby y k) d'⟩) fun b => b = true ↔
      c.Av x y d ∧ c.Av (nbx x k) (nby y k) d' ∧ c.E x y k d d' := by
  have hg := hc.graph
  unfold isEdgeAvailable
  have h1 : edgePenalty c.disparityGraph ⟨mkNode x y d, mkNode (nbx x k) (nby y k) d'⟩
      = .ok (c.disparityGraph.edgeQ x y k d d') := edgePenalty_mk hg hk hd hd'
  have h2 : lowestNeighborhoodPenalty c.lowestPenalties ⟨mkNode x y d, mkNode (nbx x k) (nby y k) d'⟩
      = .ok (c.lowestPenalties.edgeMin x y k) :=
    lowestNeighborhoodPenalty_mk hc.lowest (by rw [hc.same]; exact hk)
  obtain ⟨b1, h3, e3⟩ := isNodeAvailable_mk hc hk.1 hk.2.1 hd
  obtain ⟨b2, h4, e4⟩ := isNodeAvailable_mk hc hk.nbx_lt hk.nby_lt hd'
  have h5 := edgeExists_mk hg hk hd hd'
  rw [h1, h2]
  simp only [bind_ok]
  rw [← e3, ← e4]
  unfold ConstraintGraph.E
  rw [← h5]
  split
  · rename_i h
    simp only [Bool.not_eq_eq_eq_not, Bool.not_true] at h
    refine Ok.pure ?_
    simp [h]
  · rename_i h
    simp only [Bool.not_eq_eq_eq_not, Bool.not_true, Bool.not_eq_false] at h
    simp only [h3, bind_ok]
    cases b1
    · exact Ok.pure (by simp)
    · simp only [Bool.not_true, Bool.false_eq_true, if_false, h4, bind_ok]
      cases b2
      · exact Ok.pure (by simp)
      · exact Ok.pure (by simp [h])

end SP
