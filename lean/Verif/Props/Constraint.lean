import Verif.Lemmas.SolveCsp
import Verif.Lemmas.MinClosed
import Verif.Props.Penalty
/-!
# Properties C18–C32: the constraint graph and its solution
-/
namespace SP
open FloatOps ConstraintGraph

/-! ## Examples used below -/

/-- Images of size 3 × 1 with two disparity levels. The left image is `1 0 0`, the right one is black. -/
def smallGraph : DisparityGraph Int := freshGraph (img 3 1 1 [1, 0, 0]) (img 3 1 1 [0, 0, 0]) 2 1 2

theorem accepted_of {left right : Image} {levels : UInt64} {c s : Int}
    (h1 : 0 < left.width.toNat) (h2 : 0 < left.height.toNat) (h3 : 0 < left.maxValue.toNat)
    (h4 : left.data.toList.all fun v => decide (v ≤ left.maxValue))
    (h5 : right.data.toList.all fun v => decide (v ≤ right.maxValue))
    (h6 : 1 < levels.toNat) (h7 : levels.toNat ≤ left.width.toNat)
    (h8 : left.width = right.width) (h9 : left.height = right.height) (h10 : left.maxValue = right.maxValue)
    (h11 : 0 ≤ c) (h12 : 0 ≤ s) (h13 : 1 ≤ c ∨ 1 ≤ s) : AcceptedInput left right levels c s := by
  have key : ∀ (a : Image) , (a.data.toList.all fun v => decide (v ≤ a.maxValue)) →
      ∀ v ∈ a.data, v.toNat ≤ a.maxValue.toNat := by
    intro a h v hv
    rw [List.all_eq_true] at h
    have := h v (Array.mem_toList_iff.2 hv)
    rw [decide_eq_true_iff, UInt64.le_iff_toNat_le] at this
    exact this
  refine ⟨⟨h1, h2, h3, key _ h4⟩, ⟨h8 ▸ h1, h9 ▸ h2, h10 ▸ h3, key _ h5⟩, h6, h7, h8, h9, h10, ?_, ?_, ?_⟩
  · exact decide_eq_false (Int.not_lt.2 h11)
  · exact decide_eq_false (Int.not_lt.2 h12)
  · rcases h13 with h | h
    · exact .inl (decide_eq_false (Int.not_lt.2 h))
    · exact .inr (decide_eq_false (Int.not_lt.2 h))

theorem smallGraph_fresh : smallGraph.Fresh := by
  refine freshGraph_fresh ⟨rfl, by decide⟩ ⟨rfl, by decide⟩ (accepted_of ?_ ?_ ?_ ?_ ?_ ?_ ?_ rfl rfl rfl ?_ ?_ ?_)
    ?_ <;> decide

/-- An arbitrary value. -/
def noGraph (g : DisparityGraph Int) : ConstraintGraph Int := ⟨g, ⟨g, #[], #[]⟩, #[], 0⟩

/-- The constraint graph built for a disparity graph and a threshold. -/
def startOf (g : DisparityGraph Int) (t : Int) : ConstraintGraph Int :=
  okD (noGraph g) (do let p ← mkLowestPenalties g; mkConstraintGraph g p t)

/-- Nodes available at threshold `1`: two in each of the first two pixels, one in the last. -/
def smallStart : ConstraintGraph Int := startOf smallGraph 1

theorem smallStart_ok : smallStart.Valid ∧ smallStart.Proper ∧ smallStart.Plain :=
  have h := (pipeline_start smallGraph_fresh 1).okD (noGraph smallGraph)
  ⟨h.1, h.2.1, h.2.2.1⟩

section Basic
variable {F : Type} [FloatOps F] {g : DisparityGraph F} {p : LowestPenalties F} {c : ConstraintGraph F}

/-! ## C18–C20: the starting point -/

/-- **C18**. After construction a node is available if and only if it exists and its penalty exceeds the lowest penalty of its
pixel at most by the threshold. -/
theorem C18_start_nodes (hp : p.Valid) (hpg : p.graph = g) (t : F) {x y d : Nat}
    (hx : x < g.w) (hy : y < g.h) (hd : d < g.levels) :
    Ok (mkConstraintGraph g p t) fun c => Ok (isNodeAvailable c (mkNode x y d)) fun b =>
      b = true ↔ NodeIn g (mkNode x y d) ∧
        Ok (nodePenalty g (mkNode x y d)) fun q => Ok (lowestPixelPenalty p (mkPixel x y)) fun m =>
          le (sub q m) t = true := by
  refine (mkConstraintGraph_mk hp hpg t).mono ?_
  rintro c ⟨h1, h2, h3, h4, h5⟩
  subst h1
  refine (isNodeAvailable_mk h4 hx hy hd).mono ?_
  intro b hb
  rw [hb, h5, nodeExists_mk h4.graph hx hy hd]
  unfold startNodes
  refine and_congr_right fun hn => ?_
  rw [nodePenalty_mk h4.graph hn, lowestPixelPenalty_mk hp (hpg ▸ hx) (hpg ▸ hy)]
  simp

example : smallStart.nodesAvailability = #[true, true, true, true, true, false] := by decide +kernel

/-- **C19**, nodes: a larger threshold keeps all nodes available at the start. -/
theorem C19_nodes_monotone [LawfulFloat F] (hp : p.Valid) (hpg : p.graph = g) {t₁ t₂ : F} (ht : le t₁ t₂ = true) :
    Ok (mkConstraintGraph g p t₁) fun c₁ => Ok (mkConstraintGraph g p t₂) fun c₂ =>
      ∀ x y d, c₁.Av x y d → c₂.Av x y d := by
  refine (mkConstraintGraph_mk hp hpg t₁).mono ?_
  rintro c₁ ⟨h1, h2, h3, h4, h5⟩
  refine (mkConstraintGraph_mk hp hpg t₂).mono ?_
  rintro c₂ ⟨g1, g2, g3, g4, g5⟩ x y d
  rw [h5, g5]
  exact fun h => ⟨h.1, LawfulFloat.le_trans _ _ _ h.2 ht⟩

/-- **C19**, edges: an edge available at a threshold is available at a larger one, in the starting graphs. -/
theorem C19_edges_monotone [LawfulFloat F] (hp : p.Valid) (hpg : p.graph = g) {t₁ t₂ : F} (ht : le t₁ t₂ = true)
    {x y k d d' : Nat} (hk : HasNb g.w g.h x y k) (hd : d < g.levels) (hd' : d' < g.levels) :
    let e : Edge := ⟨mkNode x y d, mkNode (nbx x k) (nby y k) d'⟩
    Ok (mkConstraintGraph g p t₁) fun c₁ => Ok (mkConstraintGraph g p t₂) fun c₂ =>
      Ok (isEdgeAvailable c₁ e) fun b₁ => Ok (isEdgeAvailable c₂ e) fun b₂ => b₁ = true → b₂ = true := by
  intro e
  refine (mkConstraintGraph_mk hp hpg t₁).mono ?_
  rintro c₁ ⟨h1, h2, h3, h4, h5⟩
  refine (mkConstraintGraph_mk hp hpg t₂).mono ?_
  rintro c₂ ⟨g1, g2, g3, g4, g5⟩
  subst h1
  have k2 : HasNb c₂.w c₂.h x y k := by unfold ConstraintGraph.w ConstraintGraph.h; rw [g1]; exact hk
  have d2 : d < c₂.levels := by unfold ConstraintGraph.levels; rw [g1]; exact hd
  have d2' : d' < c₂.levels := by unfold ConstraintGraph.levels; rw [g1]; exact hd'
  refine (isEdgeAvailable_mk h4 hk hd hd').mono fun b₁ hb₁ => (isEdgeAvailable_mk g4 k2 d2 d2').mono fun b₂ hb₂ => ?_
  rw [hb₁, hb₂, h5, h5, g5, g5]
  rintro ⟨a1, a2, a3⟩
  refine ⟨⟨a1.1, LawfulFloat.le_trans _ _ _ a1.2 ht⟩, ⟨a2.1, LawfulFloat.le_trans _ _ _ a2.2 ht⟩, ?_⟩
  unfold ConstraintGraph.E at *
  rw [g1, g2, g3]
  rw [h2, h3] at a3
  exact ⟨a3.1, LawfulFloat.le_trans _ _ _ a3.2 ht⟩

/-- **C19**, solution: solving at a larger threshold leaves at least the nodes that solving at a smaller one leaves, and if
the problem is reported solvable at the smaller threshold then it is at the larger one. -/
theorem C19_solution_monotone [LawfulFloat F] (hp : p.Valid) (hpg : p.graph = g) {t₁ t₂ : F} (ht : le t₁ t₂ = true)
    {jobs : Nat} (hj : 0 < jobs) (hfit : g.h + jobs ≤ 18446744073709551616) :
    Ok (do let c ← mkConstraintGraph g p t₁; solveCsp (UInt64.ofNat jobs) c) fun r₁ =>
    Ok (do let c ← mkConstraintGraph g p t₂; solveCsp (UInt64.ofNat jobs) c) fun r₂ =>
      (∀ x y d, r₁.1.Av x y d → r₂.1.Av x y d) ∧ (r₁.2 = true → r₂.2 = true) := by
  refine Ok.bind (mkConstraintGraph_mk hp hpg t₁) ?_
  rintro c₁ ⟨h1, h2, h3, h4, h5⟩
  subst h1
  refine (solveCsp_mk h4 (mkConstraintGraph_proper rfl h5) hj hfit).mono ?_
  rintro r₁ ⟨a1, a2, a3⟩
  refine Ok.bind (mkConstraintGraph_mk hp hpg t₂) ?_
  rintro c₂ ⟨g1, g2, g3, g4, g5⟩
  have ew : c₂.w = c₁.w := by unfold ConstraintGraph.w; rw [g1]
  have eh : c₂.h = c₁.h := by unfold ConstraintGraph.h; rw [g1]
  refine (solveCsp_mk g4 (mkConstraintGraph_proper g1 g5) hj (by rw [eh]; exact hfit)).mono ?_
  rintro r₂ ⟨b1, b2, b3⟩
  simp only [ew, eh] at a3 b3
  have hE : ∀ x y k d d', c₁.E x y k d d' → c₂.E x y k d d' := by
    intro x y k d d' h
    unfold ConstraintGraph.E at *
    rw [g1, g2, g3]
    rw [h2, h3] at h
    exact ⟨h.1, LawfulFloat.le_trans _ _ _ h.2 ht⟩
  have hS : Sub c₁.Av c₂.Av := by
    intro x y d
    rw [h5, g5]
    exact fun h => ⟨h.1, LawfulFloat.le_trans _ _ _ h.2 ht⟩
  have hsw := sweep_mono (w := c₁.w) (h := c₁.h) hE hS (solveOrder c₁.w c₁.h jobs)
  rcases a3 with ⟨e1, e2, e3⟩ | ⟨e1, e2, e3⟩
  · have hal : AllAlive c₁.w c₁.h (sweep c₁.w c₁.h c₂.E (solveOrder c₁.w c₁.h jobs) c₂.Av) := by
      intro x y hx hy
      obtain ⟨d, hd⟩ := e1 x y hx hy
      exact ⟨d, hsw _ _ _ hd⟩
    rcases b3 with ⟨f1, f2, f3⟩ | ⟨f1, f2, f3⟩
    · rw [e2, f2]
      exact ⟨hsw, fun _ => f3⟩
    · exact absurd hal f1
  · refine ⟨fun x y d h => absurd h (e2 x y d), fun h => ?_⟩
    rw [e3] at h
    exact absurd h (by simp)

example : (startOf smallGraph 0).nodesAvailability = #[false, true, true, true, true, false] := by decide +kernel
example : ((solveCsp 1 (startOf smallGraph 0)).toOption.map (·.2)) = some false := by decide +kernel
example : ((solveCsp 1 (startOf smallGraph 1)).toOption.map (·.2)) = some true := by decide +kernel

/-- **C20**, threshold not negative: each pixel has an available node at the start. -/
theorem C20_nonnegative_threshold [LawfulFloat F] (hg : g.Valid) {t : F} (ht : le zero t = true) :
    Ok (do let p ← mkLowestPenalties g; mkConstraintGraph g p t) fun c =>
      ∀ x y, x < g.w → y < g.h → ∃ d, c.Av x y d := by
  refine Ok.bind (mkLowestPenalties_mk hg) ?_
  rintro p ⟨h1, h2, h3, h4⟩
  refine (mkConstraintGraph_mk h2 h1 t).mono ?_
  rintro c ⟨g1, g2, g3, g4, g5⟩ x y hx hy
  obtain ⟨d, hd, he⟩ := lowPixel_attained hg hx hy
  refine ⟨d, (g5 x y d).2 ⟨hd, ?_⟩⟩
  rw [h3 x y hx hy, he, LawfulFloat.sub_self]
  exact ht

/-- **C20**, negative threshold: nothing is available at the start. -/
theorem C20_negative_threshold [LawfulFloat F] (hg : g.Valid) {t : F} (ht : lt t zero = true) :
    Ok (do let p ← mkLowestPenalties g; mkConstraintGraph g p t) fun c => ∀ x y d, ¬ c.Av x y d := by
  refine Ok.bind (mkLowestPenalties_mk hg) ?_
  rintro p ⟨h1, h2, h3, h4⟩
  refine (mkConstraintGraph_mk h2 h1 t).mono ?_
  rintro c ⟨g1, g2, g3, g4, g5⟩ x y d hav
  obtain ⟨hn, hle⟩ := (g5 x y d).1 hav
  rw [h3 x y hn.1 hn.2.1] at hle
  have h5 := LawfulFloat.sub_nonneg (lowPixel_le hn)
  have h6 := LawfulFloat.le_trans _ _ _ h5 hle
  rw [LawfulFloat.lt_iff, h6] at ht
  exact Bool.noConfusion ht

example : le (zero : Int) 1 = true ∧ lt (-1 : Int) zero = true := by decide

/-! ## C21–C24: single operations -/

/-- **C21**, `make_node_available`: availability of the given node is set, that of any other is not changed. -/
theorem C21_make_node_available (hc : c.Valid) {x y d : Nat} (hx : x < c.w) (hy : y < c.h) (hd : d < c.levels) :
    Ok (makeNodeAvailable c (mkNode x y d)) fun c' =>
      isNodeAvailable c' (mkNode x y d) = .ok true ∧
      ∀ x' y' d', x' < c.w → y' < c.h → d' < c.levels → ¬ (x' = x ∧ y' = y ∧ d' = d) →
        isNodeAvailable c' (mkNode x' y' d') = isNodeAvailable c (mkNode x' y' d') := by
  refine (makeNodeAvailable_mk hc hx hy hd).mono ?_
  rintro c' ⟨h1, h2, h3⟩
  constructor
  · obtain ⟨b, hb, hb'⟩ := isNodeAvailable_mk h2 (x := x) (y := y) (d := d) (by rw [h1.w_eq]; exact hx)
      (by rw [h1.h_eq]; exact hy) (by rw [h1.levels_eq]; exact hd)
    rw [hb, hb'.2 ((h3 x y d).2 (.inl ⟨rfl, rfl, rfl⟩))]
  · intro x' y' d' hx' hy' hd' hne
    obtain ⟨b, hb, hb'⟩ := isNodeAvailable_mk h2 (x := x') (y := y') (d := d') (by rw [h1.w_eq]; exact hx')
      (by rw [h1.h_eq]; exact hy') (by rw [h1.levels_eq]; exact hd')
    obtain ⟨b2, hb2, hb2'⟩ := isNodeAvailable_mk hc (x := x') (y := y') (d := d') hx' hy' hd'
    have : c'.Av x' y' d' ↔ c.Av x' y' d' := by rw [h3]; simp [hne]
    rw [hb, hb2]
    congr 1
    rw [Bool.eq_iff_iff, hb', hb2', this]

/-- **C21**, `make_node_unavailable`: availability of the given node is cleared, that of any other is not changed. -/
theorem C21_make_node_unavailable (hc : c.Valid) {x y d : Nat} (hx : x < c.w) (hy : y < c.h) (hd : d < c.levels) :
    Ok (makeNodeUnavailable c (mkNode x y d)) fun c' =>
      isNodeAvailable c' (mkNode x y d) = .ok false ∧
      ∀ x' y' d', x' < c.w → y' < c.h → d' < c.levels → ¬ (x' = x ∧ y' = y ∧ d' = d) →
        isNodeAvailable c' (mkNode x' y' d') = isNodeAvailable c (mkNode x' y' d') := by
  refine (makeNodeUnavailable_mk hc hx hy hd).mono ?_
  rintro c' ⟨h1, h2, h3⟩
  constructor
  · obtain ⟨b, hb, hb'⟩ := isNodeAvailable_mk h2 (x := x) (y := y) (d := d) (by rw [h1.w_eq]; exact hx)
      (by rw [h1.h_eq]; exact hy) (by rw [h1.levels_eq]; exact hd)
    rw [h3] at hb'
    rw [hb]
    simp at hb'
    rw [hb']
  · intro x' y' d' hx' hy' hd' hne
    obtain ⟨b, hb, hb'⟩ := isNodeAvailable_mk h2 (x := x') (y := y') (d := d') (by rw [h1.w_eq]; exact hx')
      (by rw [h1.h_eq]; exact hy') (by rw [h1.levels_eq]; exact hd')
    obtain ⟨b2, hb2, hb2'⟩ := isNodeAvailable_mk hc (x := x') (y := y') (d := d') hx' hy' hd'
    have : c'.Av x' y' d' ↔ c.Av x' y' d' := by rw [h3]; simp [hne]
    rw [hb, hb2]
    congr 1
    rw [Bool.eq_iff_iff, hb', hb2', this]

/-- **C21**, `make_all_nodes_unavailable` clears all. -/
theorem C21_make_all_nodes_unavailable (hc : c.Valid) :
    Ok (makeAllNodesUnavailable c) fun c' => ∀ x y d, x < c.w → y < c.h → d < c.levels →
      isNodeAvailable c' (mkNode x y d) = .ok false := by
  refine (makeAllNodesUnavailable_ok hc).mono ?_
  rintro c' ⟨h1, h2, h3⟩ x y d hx hy hd
  obtain ⟨b, hb, hb'⟩ := isNodeAvailable_mk h2 (x := x) (y := y) (d := d) (by rw [h1.w_eq]; exact hx)
      (by rw [h1.h_eq]; exact hy) (by rw [h1.levels_eq]; exact hd)
  rw [hb]
  cases b
  · rfl
  · exact absurd (hb'.1 rfl) (h3 x y d)

example : smallStart.Valid ∧ 1 < smallStart.w ∧ 0 < smallStart.h ∧ 1 < smallStart.levels :=
  ⟨smallStart_ok.1, by decide +kernel, by decide +kernel, by decide +kernel⟩

/-- **C22**. For an edge between existing neighboring pixels, `is_edge_available` is true if and only if the edge exists, both
nodes are available and its penalty exceeds the stored lowest penalty of the neighborhood at most by the threshold. -/
theorem C22_is_edge_available (hc : c.Valid) {x y k d d' : Nat}
    (hk : HasNb c.w c.h x y k) (hd : d < c.levels) (hd' : d' < c.levels) :
    let e : Edge := ⟨mkNode x y d, mkNode (nbx x k) (nby y k) d'⟩
    Ok (isEdgeAvailable c e) fun b => b = true ↔
      edgeExists c.disparityGraph e = true ∧
      isNodeAvailable c e.node = .ok true ∧ isNodeAvailable c e.neighbor = .ok true ∧
      Ok (edgePenalty c.disparityGraph e) fun q => Ok (lowestNeighborhoodPenalty c.lowestPenalties e) fun m =>
        le (sub q m) c.threshold = true := by
  intro e
  refine (isEdgeAvailable_mk hc hk hd hd').mono ?_
  intro b hb
  have hx := hk.1
  have hy := hk.2.1
  have av : ∀ {x y d : Nat}, x < c.w → y < c.h → d < c.levels →
      (isNodeAvailable c (mkNode x y d) = .ok true ↔ c.Av x y d) := by
    intro x y d hx hy hd
    obtain ⟨b, hb, hb'⟩ := isNodeAvailable_mk hc hx hy hd
    rw [hb, ← hb']
    simp
  have hp : lowestNeighborhoodPenalty c.lowestPenalties e = .ok (c.lowestPenalties.edgeMin x y k) := by
    refine lowestNeighborhoodPenalty_mk hc.lowest ?_
    rw [hc.same]; exact hk
  rw [hb, edgeExists_mk hc.graph hk hd hd', av hx hy hd, av hk.nbx_lt hk.nby_lt hd', hp,
    edgePenalty_mk hc.graph hk hd hd']
  simp only [Ok_ok]
  unfold ConstraintGraph.E
  exact ⟨fun h => ⟨h.2.2.1, h.1, h.2.1, h.2.2.2⟩, fun h => ⟨h.2.1, h.2.2.1, h.1, h.2.2.2⟩⟩

example : HasNb smallStart.w smallStart.h 0 0 0 := by
  unfold HasNb
  decide +kernel
example : isEdgeAvailable smallStart ⟨mkNode 0 0 1, mkNode 1 0 1⟩ = .ok true := by decide +kernel
example : isEdgeAvailable smallStart ⟨mkNode 0 0 1, mkNode 1 0 0⟩ = .ok false := by decide +kernel

/-- **C23**. `should_remove_node` is true if and only if the node is available and there is an existing neighbor to which it
has no available edge. -/
theorem C23_should_remove_node (hc : c.Valid) {x y d : Nat} (hn : c.disparityGraph.IsNode x y d) :
    Ok (shouldRemoveNode c (mkNode x y d)) fun b => b = true ↔
      isNodeAvailable c (mkNode x y d) = .ok true ∧
      ∃ k, HasNb c.w c.h x y k ∧ ∀ d', d' < c.levels →
        isEdgeAvailable c ⟨mkNode x y d, mkNode (nbx x k) (nby y k) d'⟩ = .ok false := by
  refine (shouldRemoveNode_mk hc hn).mono ?_
  intro b hb
  rw [hb]
  obtain ⟨b1, hb1, hb1'⟩ := isNodeAvailable_mk hc hn.1 hn.2.1 hn.2.2.1
  rw [hb1]
  have e1 : (Except.ok b1 : M Bool) = .ok true ↔ c.Av x y d := by rw [← hb1']; simp
  rw [e1]
  refine and_congr_right fun hav => ?_
  unfold Supported
  simp only [not_forall]
  constructor
  · rintro ⟨k, hk, hno⟩
    refine ⟨k, hk, fun d' hd' => ?_⟩
    obtain ⟨b2, hb2, hb2'⟩ := isEdgeAvailable_mk hc hk hn.2.2.1 hd'
    rw [hb2]
    cases b2
    · rfl
    · obtain ⟨-, h1, h2⟩ := hb2'.1 rfl
      exact absurd ⟨d', h1, h2⟩ hno
  · rintro ⟨k, hk, hall⟩
    refine ⟨k, hk, ?_⟩
    rintro ⟨d', h1, h2⟩
    obtain ⟨b2, hb2, hb2'⟩ := isEdgeAvailable_mk hc hk hn.2.2.1 h1.2.2.1
    rw [hall d' h1.2.2.1] at hb2
    have := hb2'.2 ⟨hav, h1, h2⟩
    subst this
    simp at hb2

example : shouldRemoveNode smallStart (mkNode 1 0 1) = .ok true := by decide +kernel
example : shouldRemoveNode smallStart (mkNode 1 0 0) = .ok false := by decide +kernel

/-- **C24**. Processing a pixel makes unavailable exactly the nodes of the pixel that lack an available edge to some existing
neighbor, changes nothing else, and returns true if and only if there were such nodes. -/
theorem C24_process_pixel (hc : c.Valid) (hp : c.Proper) {x y : Nat} (hx : x < c.w) (hy : y < c.h) :
    Ok (cspProcessPixel c (mkPixel x y)) fun r => c.Same r.1 ∧
      (∀ x' y' d, ¬ (x' = x ∧ y' = y) → (r.1.Av x' y' d ↔ c.Av x' y' d)) ∧
      (∀ d, r.1.Av x y d ↔ c.Av x y d ∧ Supported c.w c.h c.E c.Av x y d) ∧
      (r.2 = true ↔ ∃ d, c.Av x y d ∧ ¬ r.1.Av x y d) := by
  refine (cspProcessPixel_mk hc hp hx hy).mono ?_
  rintro r ⟨h1, h2, h3, h4⟩
  have h5 : ∀ d, r.1.Av x y d ↔ c.Av x y d ∧ Supported c.w c.h c.E c.Av x y d := by
    intro d
    rw [h3]
    exact ⟨fun h => ⟨h.1, h.2 ⟨rfl, rfl⟩⟩, fun h => ⟨h.1, fun _ => h.2⟩⟩
  refine ⟨h1, fun x' y' d hne => ?_, h5, ?_⟩
  · rw [h3]
    exact removeUnsupported_other hne
  · rw [h4]
    refine exists_congr fun d => and_congr_right fun hav => ?_
    rw [h5]
    exact ⟨fun h h' => h h'.2, fun h h' => h ⟨hav, h'⟩⟩

/-- **C24**, second part: processing the same pixel again removes nothing more and reports so. -/
theorem C24_process_pixel_idempotent (hc : c.Valid) (hp : c.Proper) {x y : Nat} (hx : x < c.w) (hy : y < c.h) :
    Ok (cspProcessPixel c (mkPixel x y)) fun r => Ok (cspProcessPixel r.1 (mkPixel x y)) fun r' =>
      r'.2 = false ∧ r'.1.Av = r.1.Av := by
  refine (cspProcessPixel_mk hc hp hx hy).mono ?_
  rintro r ⟨h1, h2, h3, h4⟩
  have hsub : Sub r.1.Av c.Av := by rw [h3]; exact removeUnsupported_sub x y
  refine (cspProcessPixel_mk h2 (h1.proper hp hsub) (by rw [h1.w_eq]; exact hx)
    (by rw [h1.h_eq]; exact hy)).mono ?_
  rintro r' ⟨g1, g2, g3, g4⟩
  rw [h1.w_eq, h1.h_eq, h1.E_eq] at g3 g4
  have hsup : ∀ d, r.1.Av x y d → Supported c.w c.h c.E r.1.Av x y d := by
    intro d hav
    rw [h3] at hav ⊢
    rw [Supported.congr_pixel (S := c.Av) fun x' y' d' hne => removeUnsupported_other hne]
    exact hav.2 ⟨rfl, rfl⟩
  constructor
  · cases hb : r'.2
    · rfl
    · obtain ⟨d, h5, h6⟩ := g4.1 hb
      exact absurd (hsup d h5) h6
  · rw [g3]
    refine (removeUnsupported_sub x y).antisymm ?_
    intro x' y' d hav
    refine ⟨hav, ?_⟩
    rintro ⟨rfl, rfl⟩
    exact hsup d hav

example : ((cspProcessPixel smallStart (mkPixel 1 0)).toOption.map fun r => (r.1.nodesAvailability, r.2))
    = some (#[true, true, true, false, true, false], true) := by decide +kernel

/-! ## C25–C30: iterations and solution -/

/-- **C25** is false: the iteration on `smallStart` makes the node `(1, 0, 1)` unavailable and returns false. -/
theorem C25_iteration_result_refuted :
    smallStart.Valid ∧ smallStart.Proper ∧
    Ok (cspSolutionIteration smallStart 1 0) fun r => r.2 = false ∧
      smallStart.nodesAvailability.getD (nidx 1 2 1 0 1) false = true ∧
      r.1.nodesAvailability.getD (nidx 1 2 1 0 1) false = false := by
  refine ⟨smallStart_ok.1, smallStart_ok.2.1, ?_⟩
  have : (cspSolutionIteration smallStart 1 0).toOption.map
      (fun r => (r.1.nodesAvailability, r.2)) = some (#[true, true, true, false, true, false], false) := by
    decide +kernel
  cases h : cspSolutionIteration smallStart 1 0 with
  | error e => rw [h] at this; simp [Except.toOption] at this
  | ok r =>
    rw [h] at this
    simp only [Except.toOption, Option.map_some, Option.some.injEq, Prod.mk.injEq] at this
    refine Ok.pure ⟨this.2, ?_, ?_⟩
    · decide +kernel
    · rw [this.1]; decide

/-- **C25**, what holds. Full statement: the iteration returns true if and only if it made some available node unavailable.
It is false (`C25_iteration_result_refuted`). What the code does: it returns true exactly when processing of its pixels in
order emptied some pixel while nodes were left elsewhere, in which case it makes all nodes unavailable; and in particular
if it returns true then it made an available node unavailable. -/
theorem C25_iteration_result_partial (hc : c.Valid) (hp : c.Proper) {jobs job : Nat}
    (hj : 0 < jobs) (hfit : c.h + jobs ≤ 18446744073709551616) (hjob : job < 18446744073709551616) :
    Ok (cspSolutionIteration c (UInt64.ofNat jobs) (UInt64.ofNat job)) fun r =>
      (r.2 = true → (∃ x y d, c.Av x y d) ∧ ∀ x y d, ¬ r.1.Av x y d) ∧
      ((∀ x y d, c.Av x y d → r.1.Av x y d) → r.2 = false) := by
  refine (cspSolutionIteration_mk hc hp hj hfit hjob).mono ?_
  rintro r ⟨h1, h2, h3⟩
  have key : r.2 = true → (∃ x y d, c.Av x y d) ∧ ∀ x y d, ¬ r.1.Av x y d := by
    intro ht
    rcases h3 with ⟨h, -⟩ | ⟨s, hb, he, hiff⟩
    · rw [h] at ht; exact absurd ht (by simp)
    · obtain ⟨x, y, d, hav⟩ := hiff.1 ht
      obtain ⟨_, _, pre, q, post, _, _, hsav, _⟩ := hb
      rw [hsav] at hav
      exact ⟨⟨x, y, d, sweep_sub _ _ _ _ hav⟩, he⟩
  refine ⟨key, fun hall => ?_⟩
  cases hr : r.2
  · rfl
  · obtain ⟨⟨x, y, d, hav⟩, he⟩ := key hr
    exact absurd (hall x y d hav) (he x y d)

/-- **C26**. `solve_csp` returns: its loop ends after at most two rounds, for any number of jobs. -/
theorem C26_solve_terminates (hc : c.Valid) (hp : c.Proper) {jobs : Nat}
    (hj : 0 < jobs) (hfit : c.h + jobs ≤ 18446744073709551616) :
    ∃ g b, solveCspLoop (UInt64.ofNat jobs) 2 c = .ok g ∧ checkNodesLeft g = .ok b ∧
      solveCsp (UInt64.ofNat jobs) c = .ok (g, b) := by
  obtain ⟨s, hs, h1, h2, h3⟩ := solveCspLoop_mk hc hp hj hfit 0
  obtain ⟨b, hb, -⟩ := checkNodesLeft_ok h2
  refine ⟨s, b, hs, hb, ?_⟩
  have := solveCspLoop_fuel _ _ _ _ hs c.nodesAvailability.size
  unfold solveCsp
  rw [Nat.add_comm, this]
  simp only [bind_ok, hb, pure_eq_ok]

theorem consistent_arc {w h : Nat} {E : EdgeRel} {S : NodeSet} {L : Nat → Nat → Nat} (hL : Consistent w h E S L) :
    ArcConsistent w h E (labelingNodes w h L) :=
  hL.arc fun _ _ _ hk => ⟨hk.nbx_lt, hk.nby_lt⟩

/-- **C27**. Each node of each consistent labeling is still available after `solve_csp`, for any number of jobs. -/
theorem C27_solve_sound (hc : c.Valid) (hp : c.Proper) {jobs : Nat}
    (hj : 0 < jobs) (hfit : c.h + jobs ≤ 18446744073709551616) :
    Ok (solveCsp (UInt64.ofNat jobs) c) fun r => ∀ L, Consistent c.w c.h c.E c.Av L →
      ∀ x y, x < c.w → y < c.h → r.1.Av x y (L x y) := by
  refine (solveCsp_mk hc hp hj hfit).mono ?_
  rintro r ⟨h1, h2, h3⟩ L hL x y hx hy
  have hs := sub_sweep (consistent_arc hL) hL.sub (solveOrder c.w c.h jobs)
  rcases h3 with ⟨-, h4, -⟩ | ⟨h4, -, -⟩
  · rw [h4]
    exact hs _ _ _ ⟨hx, hy, rfl⟩
  · exact absurd (fun x y hx hy => ⟨L x y, hs _ _ _ ⟨hx, hy, rfl⟩⟩) h4

/-- **C28**. If `solve_csp` returns false then there is no consistent labeling, and no node is left available. -/
theorem C28_unsolvable_correct (hc : c.Valid) (hp : c.Proper) {jobs : Nat}
    (hj : 0 < jobs) (hfit : c.h + jobs ≤ 18446744073709551616) :
    Ok (solveCsp (UInt64.ofNat jobs) c) fun r => r.2 = false →
      (¬ ∃ L, Consistent c.w c.h c.E c.Av L) ∧ ∀ x y d, ¬ r.1.Av x y d := by
  obtain ⟨r, hr, h1, h2, h3⟩ := solveCsp_mk hc hp hj hfit
  obtain ⟨r', hr', hsound⟩ := C27_solve_sound hc hp hj hfit
  rw [hr] at hr'
  cases hr'
  refine ⟨r, hr, fun hf => ?_⟩
  rcases h3 with ⟨-, -, h4⟩ | ⟨-, h4, -⟩
  · rw [hf] at h4; exact absurd h4 (by simp)
  · refine ⟨?_, h4⟩
    rintro ⟨L, hL⟩
    exact h4 _ _ _ (hsound L hL 0 0 hc.graph.width_pos hc.graph.height_pos)

example : Consistent smallStart.w smallStart.h smallStart.E smallStart.Av fun _ _ => 0 := by
  have hw : smallStart.w = 3 := by decide +kernel
  have hh : smallStart.h = 1 := by decide +kernel
  intro x y hx hy
  rw [hw] at hx
  rw [hh] at hy
  have hav : ∀ x : Fin 3, smallStart.Av x.1 0 0 := by
    unfold ConstraintGraph.Av
    decide +kernel
  obtain rfl : y = 0 := by omega
  refine ⟨hav ⟨x, hx⟩, fun k hk => ?_⟩
  have hg := smallStart_ok.1.graph
  refine ⟨⟨hk, ?_, ?_, by simp [OrderOK]⟩, ?_⟩
  · exact ⟨hk.1, hk.2.1, hg.levels_pos, hk.1⟩
  · exact ⟨hk.nbx_lt, hk.nby_lt, hg.levels_pos, hk.nbx_lt⟩
  · rw [smallStart_ok.2.2.edgeMin _ _ _ hk, edgeQ_eq smallStart_ok.2.2.fresh]
    decide +kernel

/-- **C29**, what holds. Full statement: if `solve_csp` returns true then each pixel has an available node and there is a
consistent labeling. The second half is false (`C29_labeling_exists_refuted`). -/
theorem C29_pixels_alive_partial (hc : c.Valid) (hp : c.Proper) {jobs : Nat}
    (hj : 0 < jobs) (hfit : c.h + jobs ≤ 18446744073709551616) :
    Ok (solveCsp (UInt64.ofNat jobs) c) fun r => r.2 = true → ∀ x y, x < c.w → y < c.h → ∃ d, r.1.Av x y d := by
  refine (solveCsp_mk hc hp hj hfit).mono ?_
  rintro r ⟨-, -, h3⟩ ht
  rcases h3 with ⟨h4, h5, -⟩ | ⟨-, -, h4⟩
  · rw [h5]; exact h4
  · rw [ht] at h4; exact absurd h4 (by simp)

/-- **C30**, what holds. Full statement: after `solve_csp` each available node has, towards each existing neighbor, an
available edge. It is false (`C30_arc_consistency_refuted`). What holds: the nodes left are between the largest
arc consistent subset and the given set, they are the result of processing each pixel once, and when nothing was removed
the result is arc consistent. -/
theorem C30_arc_consistency_partial (hc : c.Valid) (hp : c.Proper) {jobs : Nat}
    (hj : 0 < jobs) (hfit : c.h + jobs ≤ 18446744073709551616) :
    Ok (solveCsp (UInt64.ofNat jobs) c) fun r =>
      (∀ x y d, r.1.Av x y d → c.Av x y d) ∧
      (r.2 = true → ∀ x y d, arcClosure c.w c.h c.E c.Av x y d → r.1.Av x y d) ∧
      (r.1.Av = c.Av → ArcConsistent c.w c.h c.E r.1.Av) := by
  refine (solveCsp_mk hc hp hj hfit).mono ?_
  rintro r ⟨h1, h2, h3⟩
  rcases h3 with ⟨h4, h5, h6⟩ | ⟨h4, h5, h6⟩
  · refine ⟨?_, fun _ => ?_, fun he => ?_⟩
    · rw [h5]; exact sweep_sub _
    · rw [h5]; exact arcClosure_sub_sweep _
    · rw [he]
      rw [he] at h5
      refine arc_of_stable (fun x y d hs => ⟨hs.1, hs.2.1⟩) fun x y hx hy => ?_
      obtain ⟨pre, post, hpp⟩ := List.append_of_mem ((mem_solveOrder (p := (x, y)) hj).2 ⟨hx, hy⟩)
      have e : sweep c.w c.h c.E pre c.Av = c.Av := by
        refine (sweep_sub _).antisymm ?_
        rw [hpp, sweep_append] at h5
        conv_lhs => rw [h5]
        exact sweep_sub _
      rw [hpp, sweep_append, e, sweep_cons] at h5
      refine (removeUnsupported_sub x y).antisymm ?_
      conv_lhs => rw [h5]
      exact sweep_sub _
  · refine ⟨fun x y d h => absurd h (h5 x y d), fun h => ?_, fun _ x y d h => absurd h (h5 x y d)⟩
    rw [h6] at h
    exact absurd h (by simp)

/-- **C30** is false: `solve_csp` on `smallStart` returns true and leaves the node `(0, 0, 1)` available, which has no
available edge to its right neighbor (`should_remove_node` says that it should be removed). -/
theorem C30_arc_consistency_refuted :
    smallStart.Valid ∧ smallStart.Proper ∧
    Ok (solveCsp 1 smallStart) fun r => r.2 = true ∧
      isNodeAvailable r.1 (mkNode 0 0 1) = .ok true ∧ shouldRemoveNode r.1 (mkNode 0 0 1) = .ok true := by
  refine ⟨smallStart_ok.1, smallStart_ok.2.1, ?_⟩
  have h : (match solveCsp 1 smallStart with
    | .ok r => decide (r.2 = true ∧ isNodeAvailable r.1 (mkNode 0 0 1) = .ok true ∧
        shouldRemoveNode r.1 (mkNode 0 0 1) = .ok true)
    | .error _ => false) = true := by decide +kernel
  cases hr : solveCsp 1 smallStart with
  | error e => rw [hr] at h; simp at h
  | ok r => rw [hr] at h; exact Ok.pure (by simpa using h)

end Basic

end SP
