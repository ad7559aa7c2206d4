import Verif.Lemmas.Constraint
/-!
# Refinement of `should_remove_node`, `csp_process_pixel` and the loops over all flags
-/
set_option linter.unusedSectionVars false

namespace SP
open FloatOps ConstraintGraph
variable {F : Type} [FloatOps F] {c : ConstraintGraph F}

theorem edgeFound_mk (hc : c.Valid) {x y k d : Nat} (hk : HasNb c.w c.h x y k) (hd : d < c.levels)
    (hxd : x + d < c.w) :
    Ok (edgeFound c (mkNode x y d) (mkPixel (nbx x k) (nby y k))) fun b => b = true ↔
      c.Av x y d ∧ ∃ d', c.Av (nbx x k) (nby y k) d' ∧ c.E x y k d d' := by
  have hb := hc.bounds
  have h1 := hb.bw
  have h2 := hb.bh
  have h3 := hb.bl
  have hx' := hk.nbx_lt
  have hx := hk.1
  have hwl : c.disparityGraph.left.width.toNat = c.w := by rw [hc.graph.width_eq]; rfl
  have hll : c.disparityGraph.disparityLevels.toNat = c.levels := rfl
  let lo := if x + 1 = nbx x k ∧ 1 < d then d - 1 else 0
  have hlo : removalInitialDisparity (mkNode x y d) (mkPixel (nbx x k) (nby y k)) = UInt64.ofNat lo := by
    unfold removalInitialDisparity
    obtain ⟨e1, e2, e3⟩ := mkNode_toNat (x := x) (y := y) (d := d) (by omega)
      (Nat.lt_trans hk.2.1 (by omega)) (by omega)
    have c1 : (mkNode x y d).pixel.x + 1 = (mkPixel (nbx x k) (nby y k)).x ↔ x + 1 = nbx x k := by
      rw [add_one_eq_iff (by omega), e1]
      simp only [mkPixel]
      rw [toNat_ofNat_lt (by omega)]
    have c2 : (mkNode x y d).disparity > 1 ↔ 1 < d := by
      rw [gt_iff_lt, UInt64.lt_iff_toNat_lt, e3]; rfl
    simp only [c1, c2, lo]
    by_cases hc : x + 1 = nbx x k ∧ 1 < d
    · rw [if_pos hc, if_pos hc]; exact ofNat_pred (by omega)
    · rw [if_neg hc, if_neg hc]; rfl
  have hlo' : nbx x k + lo < c.w := by simp only [lo]; split <;> omega
  unfold edgeFound
  refine cfor_ok lo (min c.levels (c.w - nbx x k))
    (fun j s => s = false ∧ ∀ d', d' < j → ¬ (c.Av x y d ∧ c.Av (nbx x k) (nby y k) d' ∧ c.E x y k d d'))
    hlo ?_ ?_ ?_ ?_ ?_
  · rw [hll]; omega
  · intro j hj1 hj2
    have : (mkPixel (nbx x k) (nby y k)).x = UInt64.ofNat (nbx x k) := rfl
    simp only [this]
    rw [cond_two (by omega), hwl, hll]
  · refine ⟨rfl, ?_⟩
    rintro d' hd' ⟨-, -, he⟩
    have ho := he.1.2.2.2
    obtain ⟨_, _, hk⟩ := hk
    unfold OrderOK at ho
    by_cases hh : x + 1 = nbx x k ∧ 1 < d
    · simp only [lo, if_pos hh] at hd'
      have hh' := hh.1
      unfold nbx at hh'
      rcases hk with ⟨rfl, hk⟩ | ⟨rfl, hk⟩ | ⟨rfl, hk⟩ | ⟨rfl, hk⟩
      · have := ho.1 rfl; omega
      · simp at hh'; omega
      · simp at hh'
      · simp at hh'
    · simp only [lo, if_neg hh] at hd'
      omega
  · rintro j s hj1 hj2 ⟨rfl, hj⟩
    have hjl : j < c.levels := by omega
    have := isEdgeAvailable_mk hc hk hd hjl
    refine Ok.bind this ?_
    intro b hb
    cases b
    · simp only [Bool.false_eq_true, if_false]
      refine Ok.pure ?_
      simp only [Bool.false_eq_true, if_false, true_and]
      intro d' hd'
      by_cases hdj : d' = j
      · subst hdj; rw [← hb]; simp
      · exact hj d' (by omega)
    · simp only [if_true]
      refine Ok.pure ?_
      simp only [if_true, true_iff]
      obtain ⟨a1, a2, a3⟩ := hb.1 rfl
      exact ⟨a1, j, a2, a3⟩
  · rintro s ⟨rfl, h⟩
    simp only [Bool.false_eq_true, false_iff]
    rintro ⟨a1, d', a2, a3⟩
    have hn := a3.1.2.2.1
    have l1 : d' < c.levels := hn.2.2.1
    have l2 : nbx x k + d' < c.w := hn.2.2.2
    exact h d' (by omega) ⟨a1, a2, a3⟩

theorem shouldRemoveNode_mk (hc : c.Valid) {x y d : Nat} (hn : c.disparityGraph.IsNode x y d) :
    Ok (shouldRemoveNode c (mkNode x y d)) fun b => b = true ↔
      c.Av x y d ∧ ¬ Supported c.w c.h c.E c.Av x y d := by
  obtain ⟨hx, hy, hd, hxd⟩ := hn
  unfold shouldRemoveNode
  refine Ok.bind (isNodeAvailable_mk hc hx hy hd) ?_
  intro b hb
  cases b
  · simp only [Bool.false_eq_true, false_iff] at hb
    refine Ok.pure ?_
    simp [hb]
  · simp only [true_iff] at hb
    simp only [Bool.not_true, Bool.false_eq_true, if_false]
    refine cfor_ok 0 4 (fun j s => s = false ∧ ∀ k, k < j → HasNb c.w c.h x y k →
        ∃ d', c.Av (nbx x k) (nby y k) d' ∧ c.E x y k d d') rfl (by omega) ?_ ?_ ?_ ?_
    · intro k _ hk
      exact cond_lt 4 k (by simpa using hk)
    · exact ⟨rfl, by omega⟩
    · rintro k s _ hk ⟨rfl, hs⟩
      have hN := neighborhoodExistsFast_mk hc.graph.toDims hx hy hk
      have hpx : (mkNode x y d).pixel = mkPixel x y := rfl
      simp only [hpx]
      cases hE : neighborhoodExistsFast c.disparityGraph (mkPixel x y) (UInt64.ofNat k)
      · simp only [Bool.not_false, if_true]
        refine Ok.pure ?_
        simp only [Bool.false_eq_true, if_false, true_and]
        intro j hj hjn
        by_cases hjk : j = k
        · subst hjk
          have := hN.2 hjn
          simp [this] at hE
        · exact hs j (by omega) hjn
      · have hNb := hN.1 hE
        simp only [Bool.not_true, Bool.false_eq_true, if_false]
        rw [neighborByIndex_mk hNb]
        refine Ok.bind (edgeFound_mk hc hNb hd hxd) ?_
        intro b hb'
        cases b
        · simp only [Bool.not_false, if_true]
          refine Ok.pure ?_
          simp only [if_true, true_iff]
          refine ⟨hb, fun hsup => ?_⟩
          have := hsup k hNb
          simp [hb] at hb'
          obtain ⟨d', a, b⟩ := this
          exact hb' d' a b
        · simp only [Bool.not_true, Bool.false_eq_true, if_false]
          refine Ok.pure ?_
          simp only [Bool.false_eq_true, if_false, true_and]
          intro j hj hjn
          by_cases hjk : j = k
          · subst hjk; exact (hb'.1 rfl).2
          · exact hs j (by omega) hjn
    · rintro s ⟨rfl, hs⟩
      simp only [Bool.false_eq_true, false_iff]
      rintro ⟨-, hns⟩
      apply hns
      intro k hk
      exact hs k (by have := hk.lt4; omega) hk

/-- A supported node stays supported if the set changes only inside the pixel. -/
theorem Supported.congr_pixel {w h : Nat} {E : EdgeRel} {S S' : NodeSet} {x y d : Nat}
    (hS : ∀ x' y' d', ¬ (x' = x ∧ y' = y) → (S' x' y' d' ↔ S x' y' d')) :
    Supported w h E S' x y d ↔ Supported w h E S x y d := by
  unfold Supported
  have key : ∀ k, HasNb w h x y k → ∀ d', (S' (nbx x k) (nby y k) d' ↔ S (nbx x k) (nby y k) d') := by
    intro k hk d'
    apply hS
    rintro ⟨h1, h2⟩
    obtain ⟨_, _, hk⟩ := hk
    unfold nbx at h1
    unfold nby at h2
    rcases hk with ⟨rfl, hk⟩ | ⟨rfl, hk⟩ | ⟨rfl, hk⟩ | ⟨rfl, hk⟩ <;> simp at h1 h2; omega
    omega
  constructor
  · intro hs k hk
    obtain ⟨d', a, b⟩ := hs k hk
    exact ⟨d', (key k hk d').1 a, b⟩
  · intro hs k hk
    obtain ⟨d', a, b⟩ := hs k hk
    exact ⟨d', (key k hk d').2 a, b⟩

theorem cspProcessPixel_mk (hc : c.Valid) (hp : c.Proper) {x y : Nat} (hx : x < c.w) (hy : y < c.h) :
    Ok (cspProcessPixel c (mkPixel x y)) fun r => c.Same r.1 ∧ r.1.Valid ∧
      r.1.Av = removeUnsupported c.w c.h c.E c.Av x y ∧
      (r.2 = true ↔ ∃ d, c.Av x y d ∧ ¬ Supported c.w c.h c.E c.Av x y d) := by
  have hb := hc.bounds
  have h1 := hb.bw
  have h3 := hb.bl
  have hll : c.disparityGraph.disparityLevels.toNat = c.levels := rfl
  have hwr : c.disparityGraph.right.width.toNat = c.w := rfl
  unfold cspProcessPixel
  have := cfor_all (fuel := c.disparityGraph.disparityLevels.toNat)
    (cond := fun d => decide ((mkPixel x y).x + d < c.disparityGraph.right.width)
      && decide (d < c.disparityGraph.disparityLevels))
    (body := fun d (s : ConstraintGraph F × Bool) => do
      let node : Node := { pixel := mkPixel x y, disparity := d }
      if (← shouldRemoveNode s.1 node) then
        let g ← makeNodeUnavailable s.1 node
        return ((g, true), false)
      return (s, false))
    (s := (c, false))
    (min c.levels (c.w - x))
    (fun j r => c.Same r.1 ∧ r.1.Valid ∧
      (∀ x' y' d', r.1.Av x' y' d' ↔
        c.Av x' y' d' ∧ (x' = x ∧ y' = y ∧ d' < j → Supported c.w c.h c.E c.Av x y d')) ∧
      (r.2 = true ↔ ∃ d, d < j ∧ c.Av x y d ∧ ¬ Supported c.w c.h c.E c.Av x y d))
    (by rw [hll]; omega)
    (by
      intro k hk
      have : (mkPixel x y).x = UInt64.ofNat x := rfl
      simp only [this]
      rw [cond_two (by omega), hwr, hll])
    (by
      refine ⟨Same.refl c, hc, ?_, ?_⟩
      · intro x' y' d'; simp
      · simp)
    (by
      rintro j ⟨s, ch⟩ hj ⟨hsame, hv, hav, hch⟩
      simp only at hsame hv hav hch
      have hnode : s.disparityGraph.IsNode x y j := by
        rw [hsame.1]; exact ⟨hx, hy, by show j < c.levels; omega, by show x + j < c.w; omega⟩
      have hcong : Supported s.w s.h s.E s.Av x y j ↔ Supported c.w c.h c.E c.Av x y j := by
        rw [hsame.w_eq, hsame.h_eq, hsame.E_eq]
        apply Supported.congr_pixel
        intro x' y' d' hne
        rw [hav]
        constructor
        · exact fun h => h.1
        · exact fun h => ⟨h, fun ⟨a, b, _⟩ => absurd ⟨a, b⟩ hne⟩
      have havj : s.Av x y j ↔ c.Av x y j := by rw [hav]; simp
      refine Ok.bind (shouldRemoveNode_mk hv hnode) ?_
      intro b hb
      rw [hcong, havj] at hb
      cases b
      · simp only [Bool.false_eq_true, if_false]
        refine Ok.pure ⟨rfl, hsame, hv, ?_, ?_⟩
        · intro x' y' d'
          rw [hav]
          constructor
          · rintro ⟨a1, a2⟩
            refine ⟨a1, ?_⟩
            rintro ⟨rfl, rfl, hd'⟩
            by_cases hdj : d' = j
            · subst hdj
              simp only [Bool.false_eq_true, false_iff, not_and, Classical.not_not] at hb
              exact hb a1
            · exact a2 ⟨rfl, rfl, by omega⟩
          · rintro ⟨a1, a2⟩
            exact ⟨a1, fun ⟨e1, e2, e3⟩ => a2 ⟨e1, e2, by omega⟩⟩
        · simp only
          rw [hch]
          constructor
          · rintro ⟨d, a, b⟩; exact ⟨d, by omega, b⟩
          · rintro ⟨d, a, b⟩
            by_cases hdj : d = j
            · subst hdj; exact absurd (hb.2 b) (by simp)
            · exact ⟨d, by omega, b⟩
      · simp only [if_true]
        have hjl : j < s.levels := hnode.2.2.1
        refine Ok.bind (makeNodeUnavailable_mk hv (hsame.w_eq ▸ hx) (hsame.h_eq ▸ hy) hjl) ?_
        rintro s' ⟨hs1, hs2, hs3⟩
        have hun := hb.1 rfl
        refine Ok.pure ⟨rfl, hsame.trans hs1, hs2, ?_, ?_⟩
        · intro x' y' d'
          rw [hs3, hav]
          constructor
          · rintro ⟨⟨a1, a2⟩, a3⟩
            refine ⟨a1, ?_⟩
            rintro ⟨rfl, rfl, hd'⟩
            exact a2 ⟨rfl, rfl, by
              have : d' ≠ j := fun e => a3 ⟨rfl, rfl, e⟩
              omega⟩
          · rintro ⟨a1, a2⟩
            refine ⟨⟨a1, fun ⟨e1, e2, e3⟩ => a2 ⟨e1, e2, by omega⟩⟩, ?_⟩
            rintro ⟨rfl, rfl, rfl⟩
            exact hun.2 (a2 ⟨rfl, rfl, by omega⟩)
        · simp only [true_iff]
          exact ⟨j, by omega, hun⟩)
  refine this.mono ?_
  rintro ⟨s, ch⟩ ⟨a1, a2, a3, a4⟩
  refine ⟨a1, a2, ?_, ?_⟩
  · funext x' y' d'
    apply propext
    rw [a3]
    unfold removeUnsupported
    constructor
    · rintro ⟨b1, b2⟩
      refine ⟨b1, ?_⟩
      rintro ⟨rfl, rfl⟩
      have hn := hp _ _ _ b1
      have l1 : d' < c.levels := hn.2.2.1
      have l2 : x' + d' < c.w := hn.2.2.2
      exact b2 ⟨rfl, rfl, by omega⟩
    · rintro ⟨b1, b2⟩
      exact ⟨b1, fun ⟨e1, e2, _⟩ => by subst e1 e2; exact b2 ⟨rfl, rfl⟩⟩
  · simp only at a4 ⊢
    rw [a4]
    constructor
    · rintro ⟨d, _, h⟩; exact ⟨d, h⟩
    · rintro ⟨d, h1, h2⟩
      have hn := hp _ _ _ h1
      have l1 : d < c.levels := hn.2.2.1
      have l2 : x + d < c.w := hn.2.2.2
      exact ⟨d, by omega, h1, h2⟩

theorem pixelAvailable_mk (hc : c.Valid) (hp : c.Proper) {x y : Nat} (hx : x < c.w) (hy : y < c.h) :
    Ok (pixelAvailable c (mkPixel x y)) fun b => b = true ↔ ∃ d, c.Av x y d := by
  have hb := hc.bounds
  have h1 := hb.bw
  have h3 := hb.bl
  have hll : c.disparityGraph.disparityLevels.toNat = c.levels := rfl
  have hwr : c.disparityGraph.right.width.toNat = c.w := rfl
  unfold pixelAvailable
  refine (cfor_all (min c.levels (c.w - x)) (fun j b => b = true ↔ ∃ d, d < j ∧ c.Av x y d)
    (by rw [hll]; omega) ?_ (by simp) ?_).mono ?_
  · intro k hk
    have : (mkPixel x y).x = UInt64.ofNat x := rfl
    simp only [this]
    rw [cond_two (by omega), hwr, hll]
  · intro j s hj hs
    refine Ok.bind (isNodeAvailable_mk hc hx hy (show j < c.levels by omega)) ?_
    intro b hb
    cases b
    · simp only [Bool.false_eq_true, if_false]
      refine Ok.pure ⟨rfl, ?_⟩
      simp only
      rw [hs]
      constructor
      · rintro ⟨d, a, b⟩; exact ⟨d, by omega, b⟩
      · rintro ⟨d, a, b⟩
        by_cases hdj : d = j
        · subst hdj; exact absurd (hb.2 b) (by simp)
        · exact ⟨d, by omega, b⟩
    · simp only [if_true]
      exact Ok.pure ⟨rfl, by simp only [true_iff]; exact ⟨j, by omega, hb.1 rfl⟩⟩
  · intro b hb
    rw [hb]
    constructor
    · rintro ⟨d, _, h⟩; exact ⟨d, h⟩
    · rintro ⟨d, h⟩
      have hn := hp _ _ _ h
      have l1 : d < c.levels := hn.2.2.1
      have l2 : x + d < c.w := hn.2.2.2
      exact ⟨d, by omega, h⟩

theorem nodesCount_toNat (hc : c.Valid) :
    (nodesCount c.disparityGraph).toNat = c.nodesAvailability.size := by
  have h := hc.bounds.whl
  have e : nodesCount c.disparityGraph = UInt64.ofNat (c.w * c.h * c.levels) := by
    simp [nodesCount, UInt64.ofNat_mul, ConstraintGraph.w, ConstraintGraph.h, ConstraintGraph.levels,
      DisparityGraph.w, DisparityGraph.h, DisparityGraph.levels]
  rw [e, toNat_ofNat_lt h, hc.size]
  rfl

theorem checkNodesLeft_ok (hc : c.Valid) :
    Ok (checkNodesLeft c) fun b => b = true ↔ ∃ x y d, c.Av x y d := by
  have hn := nodesCount_toNat hc
  have hlt := toNat_lt' (nodesCount c.disparityGraph)
  unfold checkNodesLeft
  refine cfor_ok 0 c.nodesAvailability.size
    (fun j b => b = false ∧ ∀ i, i < j → c.nodesAvailability.getD i false = false)
    rfl (by omega) ?_ ⟨rfl, by omega⟩ ?_ ?_
  · intro k _ hk
    rw [cond_lt _ _ (by omega), hn]
  · rintro j s _ hj ⟨rfl, hs⟩
    rw [rd_getD (v := false) (by omega) hj]
    simp only [bind_ok]
    cases hb : c.nodesAvailability.getD j false
    · simp only [Bool.false_eq_true, if_false]
      refine Ok.pure ?_
      simp only [Bool.false_eq_true, if_false, true_and]
      intro i hi
      by_cases h : i = j
      · subst h; exact hb
      · exact hs i (by omega)
    · simp only [if_true]
      refine Ok.pure ?_
      simp only [if_true, true_iff]
      have hj' : j < c.w * c.h * c.levels := by
        have := hc.size; rw [this] at hj; exact hj
      obtain ⟨x, y, d, a1, a2, a3, a4⟩ := nidx_surj hj'
      exact ⟨x, y, d, a1, a2, a3, by rw [a4]; exact hb⟩
  · rintro s ⟨rfl, hs⟩
    simp only [Bool.false_eq_true, false_iff]
    rintro ⟨x, y, d, a1, a2, a3, a4⟩
    have := hs _ (by have := (hc.nidx_lt' a1 a2 a3).1; simp; exact this)
    rw [this] at a4
    simp at a4

theorem makeAllNodesUnavailable_ok (hc : c.Valid) :
    Ok (makeAllNodesUnavailable c) fun c' => c.Same c' ∧ c'.Valid ∧ ∀ x y d, ¬ c'.Av x y d := by
  have hn := nodesCount_toNat hc
  have hlt := toNat_lt' (nodesCount c.disparityGraph)
  unfold makeAllNodesUnavailable
  have := cfor_all (fuel := (nodesCount c.disparityGraph).toNat)
    (cond := fun index => decide (index < nodesCount c.disparityGraph))
    (body := fun index (a : Array Bool) => do
      let a ← wr a index false
      return (a, false))
    (s := c.nodesAvailability)
    c.nodesAvailability.size
    (fun j a => a.size = c.nodesAvailability.size ∧ ∀ i, i < j → a.getD i false = false)
    (by omega)
    (by intro k hk; rw [cond_lt _ _ (by omega), hn])
    ⟨rfl, by omega⟩
    (by
      rintro j a hj ⟨hs, ha⟩
      rw [wr_ofNat (by omega) (by omega)]
      refine Ok.pure ⟨rfl, by simp [hs], ?_⟩
      intro i hi
      simp only [ConstraintGraph.setIfInBounds_getD _ _ _ _ _ (show j < a.size by omega)]
      split
      · rfl
      · exact ha i (by omega))
  refine Ok.bind this ?_
  rintro a ⟨hs, ha⟩
  refine Ok.pure ⟨⟨rfl, rfl, rfl⟩, ⟨hc.lowest, hc.same, ?_⟩, ?_⟩
  · simp only [hs]; exact hc.size
  · rintro x y d ⟨a1, a2, a3, a4⟩
    have hi : nidx c.h c.levels x y d < c.nodesAvailability.size := (hc.nidx_lt' a1 a2 a3).1
    have := ha _ hi
    change a.getD (nidx c.h c.levels x y d) false = true at a4
    rw [this] at a4
    simp at a4

end SP
