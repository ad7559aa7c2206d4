import Verif.Lemmas.ParLogic
import Verif.Lemmas.Solve
/-!
# What workers of `solve_csp` do, whatever the others do
-/
set_option linter.unusedSectionVars false

namespace SP
open FloatOps ConstraintGraph
variable {F : Type} [FloatOps F] {c : ConstraintGraph F} {e : Env} {B : Nat} {s : View}

/-- The flag may be read as `b` by a worker with the view `s`, now or later. -/
def Rd (e : Env) (B : Nat) (s : View) (i : Nat) (b : Bool) : Prop :=
  ∃ (s' : View) (t : Nat) (v : Flags), s.le s' ∧ s' (i / B) ≤ t ∧ e.R s' (i / B) t v ∧ v i = b

theorem Rd.mono {s s' : View} {i : Nat} {b : Bool} (h : Rd e B s' i b) (hs : s.le s') : Rd e B s i b := by
  obtain ⟨s'', t, v, h1, h2⟩ := h
  exact ⟨s'', t, v, View.le_trans hs h1, h2⟩

theorem rdFlag_wp {size i : Nat} (hi : i < size) (h64 : i < 18446744073709551616) :
    Wp e (Par.rdFlag B size (UInt64.ofNat i)) s fun b _ => Rd e B s i b := by
  unfold Par.rdFlag
  rw [toNat_ofNat_lt h64, if_pos hi]
  intro t v ht hv
  exact ⟨s, t, v, View.le_refl s, ht, hv, rfl⟩

theorem wrFlag_wp {size i : Nat} {b : Bool} {Q : Unit → View → Prop} (hi : i < size) (h64 : i < 18446744073709551616)
    (hG : ∀ t v, s (i / B) ≤ t → e.R s (i / B) t v → e.G (i / B) (fun j => if j = i then b else v j))
    (hQ : ∀ t t' v, s (i / B) ≤ t → e.R s (i / B) t v → t ≤ t' →
      e.St (i / B) t' (fun j => if j = i then b else v j) → Q () (setAt s (i / B) t')) :
    Wp e (Par.wrFlag B size (UInt64.ofNat i) b) s Q := by
  unfold Par.wrFlag
  rw [toNat_ofNat_lt h64, if_pos hi]
  intro t v ht hv
  refine ⟨hG t v ht hv, ?_⟩
  intro t' ht' hs
  simp only [setAt_self] at ht'
  have : setAt (setAt s (i / B) t) (i / B) t' = setAt s (i / B) t' := by
    funext w; unfold setAt; split <;> rfl
  rw [this]
  exact hQ t t' v ht hv ht' hs

/-- The number of the flag of a node. -/
abbrev ConstraintGraph.ix (c : ConstraintGraph F) (x y d : Nat) : Nat := nidx c.h c.levels x y d

theorem isNodeAvailable_wp (hc : c.Valid) {x y d : Nat} (hx : x < c.w) (hy : y < c.h) (hd : d < c.levels) :
    Wp e (Par.isNodeAvailable B c (mkNode x y d)) s fun b _ => Rd e B s (c.ix x y d) b := by
  have h1 := hc.nidx_lt' hx hy hd
  unfold Par.isNodeAvailable
  rw [nodeIndex_mk]
  exact rdFlag_wp h1.1 h1.2

theorem isEdgeAvailable_wp (hc : c.Valid) {x y k d d' : Nat}
    (hk : HasNb c.w c.h x y k) (hd : d < c.levels) (hd' : d' < c.levels) :
    Wp e (Par.isEdgeAvailable B c ⟨mkNode x y d, mkNode (nbx x k) (nby y k) d'⟩) s fun b _ =>
      if b then c.E x y k d d' ∧ Rd e B s (c.ix x y d) true ∧ Rd e B s (c.ix (nbx x k) (nby y k) d') true
      else c.E x y k d d' → Rd e B s (c.ix x y d) false ∨ Rd e B s (c.ix (nbx x k) (nby y k) d') false := by
  have hg := hc.graph
  unfold Par.isEdgeAvailable
  have h1 : edgePenalty c.disparityGraph ⟨mkNode x y d, mkNode (nbx x k) (nby y k) d'⟩
      = .ok (c.disparityGraph.edgeQ x y k d d') := edgePenalty_mk hg hk hd hd'
  have h2 : lowestNeighborhoodPenalty c.lowestPenalties ⟨mkNode x y d, mkNode (nbx x k) (nby y k) d'⟩
      = .ok (c.lowestPenalties.edgeMin x y k) :=
    lowestNeighborhoodPenalty_mk hc.lowest (by rw [hc.same]; exact hk)
  have h5 := edgeExists_mk hg hk hd hd'
  rw [h1, h2]
  simp only [prog_bind_eq, prog_lift_ok, prog_ret_bind, prog_pure_eq]
  unfold ConstraintGraph.E
  rw [← h5]
  split
  · rename_i h
    simp only [Bool.not_eq_eq_eq_not, Bool.not_true] at h
    simp [h]
  · rename_i h
    simp only [Bool.not_eq_eq_eq_not, Bool.not_true, Bool.not_eq_false] at h
    refine Wp.seq (isNodeAvailable_wp hc hk.1 hk.2.1 hd) ?_
    intro b1 s1 hs1 hb1
    cases b1
    · simp [hb1]
    · simp only [Bool.not_true, Bool.false_eq_true, if_false]
      refine Wp.seq (isNodeAvailable_wp hc hk.nbx_lt hk.nby_lt hd') ?_
      intro b2 s2 hs2 hb2
      have hb2' := hb2.mono hs1
      cases b2
      · simp [hb2']
      · cases hE : edgeExists c.disparityGraph ⟨mkNode x y d, mkNode (nbx x k) (nby y k) d'⟩ <;>
          simp [h, hb1, hb2']

theorem edgeFound_wp (hc : c.Valid) {x y k d : Nat} (hk : HasNb c.w c.h x y k) (hd : d < c.levels)
    (hxd : x + d < c.w) :
    Wp e (Par.edgeFound B c (mkNode x y d) (mkPixel (nbx x k) (nby y k))) s fun b _ =>
      if b then ∃ d', c.E x y k d d' ∧ Rd e B s (c.ix x y d) true ∧ Rd e B s (c.ix (nbx x k) (nby y k) d') true
      else ∀ d', c.E x y k d d' →
        Rd e B s (c.ix x y d) false ∨ Rd e B s (c.ix (nbx x k) (nby y k) d') false := by
  have hb := hc.bounds
  have h1 := hb.bw
  have h2 := hb.bh
  have h3 := hb.bl
  have hx' := hk.nbx_lt
  have hx := hk.1
  have hwl : c.disparityGraph.left.width.toNat = c.w := by rw [hc.graph.width_eq]; rfl
  have hll : c.disparityGraph.disparityLevels.toNat = c.levels := rfl
  let lo := if x + 1 = nbx x k ∧ 1 < d then d - 1 else 0
  have hlo : removalInitialDisparity (mkNode x y d) (mkPixel (nbx x k) (nby y k)) = UInt64.ofNat lo := by
    unfold removalInitialDisparity
    obtain ⟨e1, e2, e3⟩ := mkNode_toNat (x := x) (y := y) (d := d) (by omega)
      (Nat.lt_trans hk.2.1 (by omega)) (by omega)
    have c1 : (mkNode x y d).pixel.x + 1 = (mkPixel (nbx x k) (nby y k)).x ↔ x + 1 = nbx x k := by
      rw [add_one_eq_iff (by omega), e1]
      simp only [mkPixel]
      rw [toNat_ofNat_lt (by omega)]
    have c2 : (mkNode x y d).disparity > 1 ↔ 1 < d := by
      rw [gt_iff_lt, UInt64.lt_iff_toNat_lt, e3]; rfl
    simp only [c1, c2, lo]
    by_cases hc : x + 1 = nbx x k ∧ 1 < d
    · rw [if_pos hc, if_pos hc]; exact ofNat_pred (by omega)
    · rw [if_neg hc, if_neg hc]; rfl
  have hlo' : nbx x k + lo < c.w := by simp only [lo]; split <;> omega
  have hlo'' : lo < c.levels := by
    have := hc.graph.levels_pos
    have : 0 < c.levels := this
    simp only [lo]; split <;> omega
  unfold Par.edgeFound
  refine pfor_ok lo (min c.levels (c.w - nbx x k))
    (fun j b _ => b = false ∧ ∀ d', d' < j → c.E x y k d d' →
        Rd e B s (c.ix x y d) false ∨ Rd e B s (c.ix (nbx x k) (nby y k) d') false)
    hlo (by omega) ?_ ?_ ?_ ?_ ?_
  · rw [hll]; omega
  · intro j hj1 hj2
    have : (mkPixel (nbx x k) (nby y k)).x = UInt64.ofNat (nbx x k) := rfl
    simp only [this]
    rw [cond_two (by omega), hwl, hll]
  · refine ⟨rfl, ?_⟩
    rintro d' hd' he
    have ho := he.1.2.2.2
    obtain ⟨_, _, hk⟩ := hk
    unfold OrderOK at ho
    by_cases hh : x + 1 = nbx x k ∧ 1 < d
    · simp only [lo, if_pos hh] at hd'
      have hh' := hh.1
      unfold nbx at hh'
      rcases hk with ⟨rfl, hk⟩ | ⟨rfl, hk⟩ | ⟨rfl, hk⟩ | ⟨rfl, hk⟩
      · have := ho.1 rfl; omega
      · simp at hh'; omega
      · simp at hh'
      · simp at hh'
    · simp only [lo, if_neg hh] at hd'
      omega
  · rintro j b s' hj1 hj2 hs ⟨rfl, hj⟩
    have hjl : j < c.levels := by omega
    refine Wp.seq (isEdgeAvailable_wp hc hk hd hjl) ?_
    intro b s'' hs' hb
    cases b
    · simp only [Bool.false_eq_true, if_false] at hb ⊢
      simp only [prog_pure_eq, wp_ret, Bool.false_eq_true, if_false, true_and]
      intro d' hd' he
      by_cases hdj : d' = j
      · subst hdj
        rcases hb he with h | h
        · exact .inl (h.mono hs)
        · exact .inr (h.mono hs)
      · exact hj d' (by omega) he
    · simp only [if_true] at hb ⊢
      simp only [prog_pure_eq, wp_ret, if_true]
      exact ⟨j, hb.1, hb.2.1.mono hs, hb.2.2.mono hs⟩
  · rintro b s' hs ⟨rfl, h⟩
    simp only [Bool.false_eq_true, if_false]
    intro d' he
    have hn := he.1.2.2.1
    have l1 : d' < c.levels := hn.2.2.1
    have l2 : nbx x k + d' < c.w := hn.2.2.2
    exact h d' (by omega) he

/-- The reasons for which a worker with the view `s` may find that a node is to be removed. -/
def SeenBad (e : Env) (B : Nat) (c : ConstraintGraph F) (s : View) (x y d : Nat) : Prop :=
  Rd e B s (c.ix x y d) true ∧ ∃ k, HasNb c.w c.h x y k ∧ ∀ d', c.E x y k d d' →
    Rd e B s (c.ix x y d) false ∨ Rd e B s (c.ix (nbx x k) (nby y k) d') false

/-- The reasons for which a worker with the view `s` may find that a node is not to be removed. -/
def SeenGood (e : Env) (B : Nat) (c : ConstraintGraph F) (s : View) (x y d : Nat) : Prop :=
  Rd e B s (c.ix x y d) false ∨ ∀ k, HasNb c.w c.h x y k → ∃ d', c.E x y k d d' ∧
    Rd e B s (c.ix (nbx x k) (nby y k) d') true

theorem SeenBad.mono {s s' : View} {x y d : Nat} (h : SeenBad e B c s' x y d) (hs : s.le s') :
    SeenBad e B c s x y d := by
  obtain ⟨h1, k, hk, h2⟩ := h
  refine ⟨h1.mono hs, k, hk, fun d' he => ?_⟩
  rcases h2 d' he with h | h
  · exact .inl (h.mono hs)
  · exact .inr (h.mono hs)

theorem SeenGood.mono {s s' : View} {x y d : Nat} (h : SeenGood e B c s' x y d) (hs : s.le s') :
    SeenGood e B c s x y d := by
  rcases h with h | h
  · exact .inl (h.mono hs)
  · refine .inr fun k hk => ?_
    obtain ⟨d', he, h⟩ := h k hk
    exact ⟨d', he, h.mono hs⟩

theorem shouldRemoveNode_wp (hc : c.Valid) {x y d : Nat} (hn : c.disparityGraph.IsNode x y d) :
    Wp e (Par.shouldRemoveNode B c (mkNode x y d)) s fun b _ =>
      if b then SeenBad e B c s x y d else SeenGood e B c s x y d := by
  obtain ⟨hx, hy, hd, hxd⟩ := hn
  unfold Par.shouldRemoveNode
  refine Wp.seq (isNodeAvailable_wp hc hx hy hd) ?_
  intro b s1 hs1 hb
  cases b
  · simp only [Bool.not_false, if_true, prog_pure_eq, wp_ret, Bool.false_eq_true, if_false]
    exact .inl hb
  · simp only [Bool.not_true, Bool.false_eq_true, if_false]
    refine pfor_ok 0 4 (fun j b _ => b = false ∧ ∀ k, k < j → HasNb c.w c.h x y k →
        ∃ d', c.E x y k d d' ∧ Rd e B s (c.ix (nbx x k) (nby y k) d') true) rfl (by omega) (by omega) ?_ ?_ ?_ ?_
    · intro k _ hk
      exact cond_lt 4 k (by simpa using hk)
    · exact ⟨rfl, by omega⟩
    · rintro k b s' _ hk hs' ⟨rfl, hg⟩
      have hN := neighborhoodExistsFast_mk hc.graph.toDims hx hy hk
      have hpx : (mkNode x y d).pixel = mkPixel x y := rfl
      simp only [hpx]
      cases hE : neighborhoodExistsFast c.disparityGraph (mkPixel x y) (UInt64.ofNat k)
      · simp only [Bool.not_false, if_true]
        simp only [prog_pure_eq, wp_ret, Bool.false_eq_true, if_false, true_and]
        intro j hj hjn
        by_cases hjk : j = k
        · subst hjk
          have := hN.2 hjn
          simp [this] at hE
        · exact hg j (by omega) hjn
      · have hNb := hN.1 hE
        simp only [Bool.not_true, Bool.false_eq_true, if_false]
        rw [neighborByIndex_mk hNb]
        refine Wp.seq (edgeFound_wp hc hNb hd hxd) ?_
        intro b s2 hs2 hb'
        have hle := View.le_trans hs1 hs'
        cases b
        · simp only [Bool.not_false, if_true, Bool.false_eq_true, if_false] at hb' ⊢
          simp only [prog_pure_eq, wp_ret, if_true]
          refine ⟨hb, k, hNb, fun d' he => ?_⟩
          rcases hb' d' he with h | h
          · exact .inl (h.mono hle)
          · exact .inr (h.mono hle)
        · simp only [if_true, Bool.not_true, Bool.false_eq_true, if_false] at hb' ⊢
          simp only [prog_pure_eq, wp_ret, Bool.false_eq_true, if_false, true_and]
          intro j hj hjn
          by_cases hjk : j = k
          · subst hjk
            obtain ⟨d', he, _, h⟩ := hb'
            exact ⟨d', he, h.mono hle⟩
          · exact hg j (by omega) hjn
    · rintro b s' hs' ⟨rfl, hg⟩
      simp only [Bool.false_eq_true, if_false]
      exact .inr fun k hk => hg k (by have := hk.lt4; omega) hk

theorem pixelAvailable_wp (hc : c.Valid) {x y : Nat} (hx : x < c.w) (hy : y < c.h) :
    Wp e (Par.pixelAvailable B c (mkPixel x y)) s fun b _ =>
      if b then ∃ d, c.disparityGraph.IsNode x y d ∧ Rd e B s (c.ix x y d) true
      else ∀ d, c.disparityGraph.IsNode x y d → Rd e B s (c.ix x y d) false := by
  have hb := hc.bounds
  have h1 := hb.bw
  have h3 := hb.bl
  have hll : c.disparityGraph.disparityLevels.toNat = c.levels := rfl
  have hwr : c.disparityGraph.right.width.toNat = c.w := rfl
  unfold Par.pixelAvailable
  refine pfor_ok 0 (min c.levels (c.w - x)) (fun j b _ =>
      if b then ∃ d, c.disparityGraph.IsNode x y d ∧ Rd e B s (c.ix x y d) true
      else ∀ d, d < j → c.disparityGraph.IsNode x y d → Rd e B s (c.ix x y d) false)
    rfl (by omega) (by rw [hll]; omega) ?_ (by simp) ?_ ?_
  · intro k _ hk
    have : (mkPixel x y).x = UInt64.ofNat x := rfl
    simp only [this]
    rw [cond_two (by omega), hwr, hll]
  · intro j b s' _ hj hs' hb
    have hjn : c.disparityGraph.IsNode x y j :=
      ⟨hx, hy, by show j < c.levels; omega, by show x + j < c.w; omega⟩
    refine Wp.seq (isNodeAvailable_wp hc hx hy (show j < c.levels by omega)) ?_
    intro b' s2 hs2 hb'
    cases b'
    · simp only [Bool.false_eq_true, if_false, prog_pure_eq, wp_ret]
      cases b
      · simp only [Bool.false_eq_true, if_false] at hb ⊢
        intro d hd hn
        by_cases hdj : d = j
        · subst hdj; exact hb'.mono hs'
        · exact hb d (by omega) hn
      · simpa using hb
    · simp only [if_true, prog_pure_eq, wp_ret, Bool.false_eq_true, if_false]
      exact ⟨j, hjn, hb'.mono hs'⟩
  · intro b s' hs' hb
    cases b
    · simp only [Bool.false_eq_true, if_false] at hb ⊢
      intro d hn
      have l1 : d < c.levels := hn.2.2.1
      have l2 : x + d < c.w := hn.2.2.2
      exact hb d (by omega) hn
    · simpa using hb

theorem checkNodesLeft_wp (hc : c.Valid) :
    Wp e (Par.checkNodesLeft B c) s fun b _ =>
      if b then ∃ i, i < c.nodesAvailability.size ∧ Rd e B s i true
      else ∀ i, i < c.nodesAvailability.size → Rd e B s i false := by
  have hn := nodesCount_toNat hc
  have hlt := toNat_lt' (nodesCount c.disparityGraph)
  unfold Par.checkNodesLeft
  refine pfor_ok 0 c.nodesAvailability.size
    (fun j b _ => b = false ∧ ∀ i, i < j → Rd e B s i false)
    rfl (by omega) (by omega) ?_ ⟨rfl, by omega⟩ ?_ ?_
  · intro k _ hk
    rw [cond_lt _ _ (by omega), hn]
  · rintro j b s' _ hj hs' ⟨rfl, hb⟩
    refine Wp.seq (rdFlag_wp hj (by omega)) ?_
    intro b s2 hs2 hb'
    cases b
    · simp only [Bool.false_eq_true, if_false, prog_pure_eq, wp_ret, true_and]
      intro i hi
      by_cases h : i = j
      · subst h; exact hb'.mono hs'
      · exact hb i (by omega)
    · simp only [if_true, prog_pure_eq, wp_ret]
      exact ⟨j, hj, hb'.mono hs'⟩
  · rintro b s' hs' ⟨rfl, hb⟩
    simpa using hb

theorem makeAllNodesUnavailable_wp (hc : c.Valid)
    (hG : ∀ s i t v, i < c.nodesAvailability.size → s (i / B) ≤ t → e.R s (i / B) t v →
      e.G (i / B) (fun j => if j = i then false else v j)) :
    Wp e (Par.makeAllNodesUnavailable B c) s fun _ _ => True := by
  have hn := nodesCount_toNat hc
  have hlt := toNat_lt' (nodesCount c.disparityGraph)
  unfold Par.makeAllNodesUnavailable
  refine pfor_ok 0 c.nodesAvailability.size (fun _ _ _ => True) rfl (by omega) (by omega) ?_ trivial ?_ ?_
  · intro k _ hk
    rw [cond_lt _ _ (by omega), hn]
  · intro j b s' _ hj hs' _
    refine Wp.seq (P := fun _ _ => True) (wrFlag_wp hj (by omega) (fun t v => hG s' j t v hj) (by simp)) ?_
    intro _ s2 _ _
    simp
  · simp

/-- Processing of one pixel: `P d changed s` before the disparity `d`. -/
theorem cspProcessPixel_wp (hc : c.Valid) {x y : Nat} (hx : x < c.w) (hy : y < c.h)
    (P : Nat → Bool → View → Prop) {Q : Bool → View → Prop} (h0 : P 0 false s)
    (hkeep : ∀ d ch s', s.le s' → c.disparityGraph.IsNode x y d → P d ch s' →
      Wp e (Par.shouldRemoveNode B c (mkNode x y d)) s' fun b s'' =>
        if b then
          (∀ t v, s'' (c.ix x y d / B) ≤ t → e.R s'' (c.ix x y d / B) t v →
            e.G (c.ix x y d / B) (fun j => if j = c.ix x y d then false else v j) ∧
            ∀ t', t ≤ t' → e.St (c.ix x y d / B) t' (fun j => if j = c.ix x y d then false else v j) →
              P (d + 1) true (setAt s'' (c.ix x y d / B) t'))
        else P (d + 1) ch s'')
    (hend : ∀ ch s', s.le s' → P (min c.levels (c.w - x)) ch s' → Q ch s') :
    Wp e (Par.cspProcessPixel B c (mkPixel x y)) s Q := by
  have hb := hc.bounds
  have h1 := hb.bw
  have h3 := hb.bl
  have hll : c.disparityGraph.disparityLevels.toNat = c.levels := rfl
  have hwr : c.disparityGraph.right.width.toNat = c.w := rfl
  unfold Par.cspProcessPixel
  refine pfor_ok 0 (min c.levels (c.w - x)) P rfl (by omega) (by rw [hll]; omega) ?_ h0 ?_ hend
  · intro k _ hk
    have : (mkPixel x y).x = UInt64.ofNat x := rfl
    simp only [this]
    rw [cond_two (by omega), hwr, hll]
  · intro j ch s' _ hj hs' hP
    have hjn : c.disparityGraph.IsNode x y j :=
      ⟨hx, hy, by show j < c.levels; omega, by show x + j < c.w; omega⟩
    refine Wp.seq (hkeep j ch s' hs' hjn hP) ?_
    intro b s2 hs2 hb
    cases b
    · simpa using hb
    · simp only [if_true] at hb ⊢
      have hi := hc.nidx_lt' hx hy (show j < c.levels by omega)
      have : Par.makeNodeUnavailable B c (mkNode x y j)
          = Par.wrFlag B c.nodesAvailability.size (UInt64.ofNat (c.ix x y j)) false := by
        unfold Par.makeNodeUnavailable
        rw [nodeIndex_mk]; rfl
      refine Wp.bind ?_
      change Wp e (Par.makeNodeUnavailable B c (mkNode x y j)) s2 _
      rw [this]
      refine wrFlag_wp hi.1 hi.2 (fun t v h1 h2 => (hb t v h1 h2).1) ?_
      intro t t' v h1 h2 h3 h4
      simpa using (hb t v h1 h2).2 t' h3 h4

/-- One worker: `J k x s` before the pixel `x` of its row number `k`, `D s` after a pixel without nodes. -/
theorem cspSolutionIteration_wp (hc : c.Valid) {jobs job : Nat}
    (hj : 0 < jobs) (hfit : c.h + jobs ≤ 18446744073709551616) (hjob : job < 18446744073709551616)
    (J : Nat → Nat → View → Prop) (D : View → Prop) {Q : Bool → View → Prop} (h0 : J 0 0 s)
    (hrow : ∀ k s', J k c.w s' → J (k + 1) 0 s')
    (hpix : ∀ k x s', s.le s' → x < c.w → job + k * jobs < c.h → J k x s' →
      Wp e (Par.cspProcessPixel B c (mkPixel x (job + k * jobs))) s' fun _ s'' =>
        Wp e (Par.pixelAvailable B c (mkPixel x (job + k * jobs))) s'' fun b s3 =>
          if b then J k (x + 1) s3 else D s3)
    (hdead : ∀ s', s.le s' → D s' → Wp e (Par.checkNodesLeft B c) s' fun b s'' =>
      if b then Wp e (Par.makeAllNodesUnavailable B c) s'' fun _ s3 => Q true s3 else Q false s'')
    (hend : ∀ s', s.le s' → J (jobRows c.h jobs job) 0 s' → Q false s') :
    Wp e (Par.cspSolutionIteration B c (UInt64.ofNat jobs) (UInt64.ofNat job)) s Q := by
  have hw : c.disparityGraph.right.width.toNat = c.w := rfl
  have hh : c.disparityGraph.right.height.toNat = c.h := rfl
  have hwp : 0 < c.w := hc.graph.width_pos
  have hhp : 0 < c.h := hc.graph.height_pos
  have hwb := hc.bounds.bw
  have hhb := hc.bounds.bh
  unfold Par.cspSolutionIteration
  have hcnd : (UInt64.ofNat job ≥ c.disparityGraph.right.height) ↔ c.h ≤ job := by
    rw [ge_iff_le, UInt64.le_iff_toNat_le, toNat_ofNat_lt hjob, hh]
  by_cases hjb : c.h ≤ job
  · rw [if_pos (hcnd.2 hjb)]
    have : jobRows c.h jobs job = 0 := by
      have := jobRows_lt (h := c.h) (jobs := jobs) (job := job) (i := 0) hj
      omega
    exact hend s (View.le_refl s) (this ▸ h0)
  · rw [if_neg (fun h => hjb (hcnd.1 h))]
    simp only
    have hn0 : 0 < jobRows c.h jobs job := (jobRows_lt hj).2 (by omega)
    refine Wp.seq (P := fun b s' => if b then J (jobRows c.h jobs job) 0 s' else D s') ?_ ?_
    · refine pfor_seq (fun i => UInt64.ofNat (job + i * jobs)) 0 (jobRows c.h jobs job)
        (fun i b s' => J i 0 s' ∧ (0 < i → b = true))
        (by simp) (by omega) ?_ ?_ ?_ ?_ ?_ ?_
      · have : jobRows c.h jobs job ≤ c.h := by
          by_cases hlt : c.h < jobRows c.h jobs job
          · have := (jobRows_lt hj).1 hlt
            have := Nat.le_mul_of_pos_right c.h hj
            omega
          · omega
        omega
      · intro k _ _
        rw [← UInt64.ofNat_add, Nat.add_mul, Nat.one_mul, Nat.add_assoc]
      · intro k _ hk
        have hk' := jobRows_lt (h := c.h) (jobs := jobs) (job := job) (i := k) hj
        rw [Bool.eq_iff_iff]
        simp only [decide_eq_true_eq]
        have hlt : job + k * jobs < 18446744073709551616 := by
          by_cases h0 : k = 0
          · subst h0; omega
          · obtain ⟨m, rfl⟩ : ∃ m, k = m + 1 := ⟨k - 1, by omega⟩
            have := (jobRows_lt (h := c.h) (jobs := jobs) (job := job) (i := m) hj).1 (by omega)
            rw [Nat.add_mul]
            omega
        rw [UInt64.lt_iff_toNat_lt, toNat_ofNat_lt hlt, hh, hk']
      · exact ⟨h0, by omega⟩
      · rintro k b s1 _ hk hs1 ⟨hJ, -⟩
        have hy : job + k * jobs < c.h := (jobRows_lt hj).1 hk
        refine Wp.seq (P := fun b s' => if b then J k c.w s' else D s') ?_ ?_
        · refine pfor_ok 0 c.w (fun x b s' => J k x s' ∧ (0 < x → b = true)) rfl (by omega) (by omega) ?_ ?_ ?_ ?_
          · intro x _ hx
            rw [cond_lt _ _ (by omega), hw]
          · exact ⟨hJ, by omega⟩
          · rintro x b s2 _ hx hs2 ⟨hJ, -⟩
            refine Wp.seq (hpix k x s2 (View.le_trans hs1 hs2) hx hy hJ) ?_
            intro _ s3 hs3 h
            refine Wp.seq h ?_
            intro b s4 hs4 h
            cases b
            · simpa using h
            · simp only [if_true] at h
              simp [h]
          · rintro b s2 hs2 ⟨hJ, hb⟩
            simp [hb hwp, hJ]
        · intro b s2 hs2 h
          cases b
          · simpa using h
          · simp only [if_true] at h
            simp [hrow k s2 h]
      · rintro b s1 hs1 ⟨hJ, hb⟩
        simp [hb hn0, hJ]
    · intro b s1 hs1 h
      cases b
      · simp only [Bool.false_eq_true, if_false] at h
        simp only [Bool.not_false, if_true]
        refine Wp.seq (hdead s1 hs1 h) ?_
        intro b s2 hs2 hb
        cases b
        · simpa using hb
        · simp only [if_true] at hb
          simp only [Bool.not_true, Bool.false_eq_true, if_false]
          refine Wp.seq hb ?_
          intro _ s3 _ h
          simpa using h
      · simp only [if_true] at h
        simpa using hend s1 hs1 h

end SP
