import Verif.Lemmas.Transfer
/-!
# The same computation in two arithmetics: `constraint_graph.cpp`, `labeling_finder.cpp`
-/
namespace SP
open FloatOps
variable {F G : Type} [FloatOps F] [FloatOps G]

/-- A constraint graph of `g`, `l` and `t`, and its image. -/
structure Mapped (φ : Recode F G) (g : DisparityGraph F) (l : LowestPenalties F) (t : F) (c : ConstraintGraph F) (c' : ConstraintGraph G) : Prop where
  map : c' = c.mapF φ
  graph : c.disparityGraph = g
  lowest : c.lowestPenalties = l
  threshold : c.threshold = t

/-- The same with a flag. -/
abbrev Mapped2 (φ : Recode F G) (g : DisparityGraph F) (l : LowestPenalties F) (t : F) (a : ConstraintGraph F × Bool)
    (b : ConstraintGraph G × Bool) : Prop := a.2 = b.2 ∧ Mapped φ g l t a.1 b.1

section
variable {φ : Recode F G} {P : F → Prop} {g : DisparityGraph F} {l : LowestPenalties F} {t : F}

theorem wrFlags_transfer {c : ConstraintGraph F} {c' : ConstraintGraph G} (h : Mapped φ g l t c c') (i : UInt64) (b : Bool) :
    Sim (Mapped φ g l t) (wr c.nodesAvailability i b >>= fun a => Pure.pure { c with nodesAvailability := a })
      (wr c'.nodesAvailability i b >>= fun a => Pure.pure { c' with nodesAvailability := a }) := by
  obtain ⟨rfl, h1, h2, h3⟩ := h
  refine Sim.bind_same fun a => Sim.pure ⟨rfl, h1, h2, h3⟩

theorem makeNodeAvailable_transfer {c : ConstraintGraph F} {c' : ConstraintGraph G} (h : Mapped φ g l t c c') (n : Node) :
    Sim (Mapped φ g l t) (makeNodeAvailable c n) (makeNodeAvailable c' n) := by
  have := wrFlags_transfer h (nodeIndex c.disparityGraph n) true
  obtain ⟨rfl, _⟩ := h
  exact this

theorem makeNodeUnavailable_transfer {c : ConstraintGraph F} {c' : ConstraintGraph G} (h : Mapped φ g l t c c') (n : Node) :
    Sim (Mapped φ g l t) (makeNodeUnavailable c n) (makeNodeUnavailable c' n) := by
  have := wrFlags_transfer h (nodeIndex c.disparityGraph n) false
  obtain ⟨rfl, _⟩ := h
  exact this

theorem makeAllNodesUnavailable_transfer {c : ConstraintGraph F} {c' : ConstraintGraph G} (h : Mapped φ g l t c c') :
    Sim (Mapped φ g l t) (makeAllNodesUnavailable c) (makeAllNodesUnavailable c') := by
  obtain ⟨rfl, h1, h2, h3⟩ := h
  unfold makeAllNodesUnavailable
  exact Sim.bind_same fun a => Sim.pure ⟨rfl, h1, h2, h3⟩

theorem isNodeAvailable_map (c : ConstraintGraph F) (n : Node) : isNodeAvailable (c.mapF φ) n = isNodeAvailable c n := rfl

theorem checkNodesLeft_map (c : ConstraintGraph F) : checkNodesLeft (c.mapF φ) = checkNodesLeft c := rfl

theorem pixelAvailable_map (c : ConstraintGraph F) (p : Pixel) : pixelAvailable (c.mapF φ) p = pixelAvailable c p := rfl

variable (hom : Hom φ P) (hg : Carried φ P g) (hl : CarriedLowest φ P l)
include hom hg hl

/-- The condition on the penalty of an edge. -/
theorem edgeCondition_transfer {c : ConstraintGraph F} {c' : ConstraintGraph G} (h : Mapped φ g l t c c') (e : Edge)
    (h1 : e.node.disparity < g.disparityLevels) (h2 : e.neighbor.disparity < g.disparityLevels) {α : Type} (f : Bool → M α) :
    Sim Eq (do
        let p ← edgePenalty c.disparityGraph e
        let l ← lowestNeighborhoodPenalty c.lowestPenalties e
        f (le (sub p l) c.threshold))
      (do
        let p ← edgePenalty c'.disparityGraph e
        let l ← lowestNeighborhoodPenalty c'.lowestPenalties e
        f (le (sub p l) c'.threshold)) := by
  obtain ⟨rfl, rfl, rfl, rfl⟩ := h
  refine Sim.bind (hg.edge e h1 h2) ?_
  rintro p _ ⟨hp, rfl⟩
  refine Sim.bind (lowestNeighborhoodPenalty_transfer hl e) ?_
  rintro q _ ⟨hq, rfl⟩
  rw [← hom.sub _ _ hp hq]
  change Sim Eq (f (le (sub p q) c.threshold)) (f (le (φ (sub p q)) (φ c.threshold)))
  rw [hom.le]
  exact Sim.same _

theorem isEdgeAvailable_transfer {c : ConstraintGraph F} {c' : ConstraintGraph G} (h : Mapped φ g l t c c') (e : Edge)
    (h1 : e.node.disparity < g.disparityLevels) (h2 : e.neighbor.disparity < g.disparityLevels) :
    Sim Eq (isEdgeAvailable c e) (isEdgeAvailable c' e) := by
  have := edgeCondition_transfer hom hg hl h e h1 h2 fun b => (do
    if !b then return false
    if !(← isNodeAvailable c e.node) then return false
    if !(← isNodeAvailable c e.neighbor) then return false
    return edgeExists c.disparityGraph e : M Bool)
  obtain ⟨rfl, _⟩ := h
  exact this

theorem edgeFound_transfer {c : ConstraintGraph F} {c' : ConstraintGraph G} (h : Mapped φ g l t c c') (n : Node) (p : Pixel)
    (h1 : n.disparity < g.disparityLevels) : Sim Eq (edgeFound c n p) (edgeFound c' n p) := by
  have hsame := fun e h1 h2 => (isEdgeAvailable_transfer hom hg hl h e h1 h2)
  obtain ⟨rfl, rfl, _, _⟩ := h
  unfold edgeFound
  refine cfor_sim_same ?_ _ _ _ _ rfl
  rintro d' s _ hc rfl
  rw [Bool.and_eq_true, decide_eq_true_eq, decide_eq_true_eq] at hc
  refine Sim.bind (hsame _ h1 hc.2) ?_
  rintro b _ rfl
  exact (Sim.same _).mono fun a b h => by rw [h]; exact ⟨rfl, rfl⟩

theorem shouldRemoveNode_transfer {c : ConstraintGraph F} {c' : ConstraintGraph G} (h : Mapped φ g l t c c') (n : Node)
    (h1 : n.disparity < g.disparityLevels) : Sim Eq (shouldRemoveNode c n) (shouldRemoveNode c' n) := by
  have hsame := fun p => (edgeFound_transfer hom hg hl h n p h1)
  obtain ⟨rfl, rfl, _, _⟩ := h
  unfold shouldRemoveNode
  rw [isNodeAvailable_map]
  refine Sim.bind_same fun b => ?_
  cases b
  · exact Sim.same _
  · simp only [Bool.not_true, Bool.false_eq_true, if_false]
    refine cfor_sim_same ?_ _ _ _ _ rfl
    rintro k s _ _ rfl
    rw [show neighborhoodExistsFast (c.mapF φ).disparityGraph n.pixel k = neighborhoodExistsFast c.disparityGraph n.pixel k from rfl]
    cases neighborhoodExistsFast c.disparityGraph n.pixel k
    · exact Sim.pure ⟨rfl, rfl⟩
    · refine Sim.bind (hsame _) ?_
      rintro b _ rfl
      exact (Sim.same _).mono fun a b h => by rw [h]; exact ⟨rfl, rfl⟩

theorem cspProcessPixel_transfer {c : ConstraintGraph F} {c' : ConstraintGraph G} (h : Mapped φ g l t c c') (p : Pixel) :
    Sim (Mapped2 φ g l t) (cspProcessPixel c p) (cspProcessPixel c' p) := by
  have h' := h
  obtain ⟨rfl, rfl, _, _⟩ := h
  unfold cspProcessPixel
  refine cfor_sim_same (R := Mapped2 φ c.disparityGraph l t) ?_ _ _ _ _ ⟨rfl, h'⟩
  intro d s s' hc hs
  rw [Bool.and_eq_true, decide_eq_true_eq, decide_eq_true_eq] at hc
  refine Sim.bind (shouldRemoveNode_transfer hom hg hl hs.2 _ hc.2) ?_
  rintro b _ rfl
  cases b
  · exact Sim.pure ⟨rfl, hs⟩
  · refine Sim.bind (makeNodeUnavailable_transfer hs.2 _) ?_
    intro x y hxy
    exact Sim.pure ⟨rfl, rfl, hxy⟩

theorem cspSolutionIteration_transfer {c : ConstraintGraph F} {c' : ConstraintGraph G} (h : Mapped φ g l t c c') (jobs i : UInt64) :
    Sim (Mapped2 φ g l t) (cspSolutionIteration c jobs i) (cspSolutionIteration c' jobs i) := by
  have h' := h
  obtain ⟨rfl, hgr, _, _⟩ := h
  unfold cspSolutionIteration
  rw [show (c.mapF φ).disparityGraph.right.height = c.disparityGraph.right.height from rfl,
    show (c.mapF φ).disparityGraph.right.width = c.disparityGraph.right.width from rfl]
  split
  · exact Sim.pure ⟨rfl, h'⟩
  · refine Sim.bind (R := Mapped2 φ g l t) ?_ ?_
    · refine cfor_sim_same (R := Mapped2 φ g l t) ?_ _ _ _ _ ⟨rfl, h'⟩
      intro y s s' _ hs
      refine Sim.bind (R := Mapped2 φ g l t) ?_ ?_
      · refine cfor_sim_same (R := Mapped2 φ g l t) ?_ _ _ _ _ hs
        intro x s s' _ hs
        refine Sim.bind (cspProcessPixel_transfer hom hg hl hs.2 _) ?_
        rintro ⟨a, _⟩ ⟨_, _⟩ ⟨_, hm⟩
        have hm' := hm
        obtain ⟨rfl, _⟩ := hm
        refine Sim.bind (show Sim Eq (pixelAvailable a { x := x, y := y }) (pixelAvailable (a.mapF φ) { x := x, y := y }) from Sim.same _) ?_
        rintro b _ rfl
        cases b
        · exact Sim.pure ⟨rfl, rfl, hm'⟩
        · exact Sim.pure ⟨rfl, rfl, hm'⟩
      · rintro ⟨a, b⟩ ⟨_, _⟩ ⟨rfl, hm⟩
        cases b
        · exact Sim.pure ⟨rfl, rfl, hm⟩
        · exact Sim.pure ⟨rfl, rfl, hm⟩
    · rintro ⟨a, b⟩ ⟨_, _⟩ ⟨rfl, hm⟩
      have hm' := hm
      obtain ⟨rfl, _⟩ := hm
      cases b
      · refine Sim.bind (show Sim Eq (checkNodesLeft a) (checkNodesLeft (a.mapF φ)) from Sim.same _) ?_
        rintro b _ rfl
        cases b
        · exact Sim.pure ⟨rfl, hm'⟩
        · refine Sim.bind (makeAllNodesUnavailable_transfer hm') ?_
          intro x y hxy
          exact Sim.pure ⟨rfl, hxy⟩
      · exact Sim.pure ⟨rfl, hm'⟩

theorem solveCspRound_transfer {c : ConstraintGraph F} {c' : ConstraintGraph G} (h : Mapped φ g l t c c') (jobs : UInt64) :
    Sim (Mapped2 φ g l t) (solveCspRound jobs c) (solveCspRound jobs c') := by
  unfold solveCspRound
  refine cfor_sim_same (R := Mapped2 φ g l t) ?_ _ _ _ _ ⟨rfl, h⟩
  intro i s s' _ hs
  refine Sim.bind (cspSolutionIteration_transfer hom hg hl hs.2 _ _) ?_
  rintro ⟨a, b⟩ ⟨_, _⟩ ⟨rfl, hm⟩
  rw [← hs.1]
  exact Sim.pure ⟨rfl, rfl, hm⟩

theorem solveCspLoop_transfer (jobs : UInt64) (fuel : Nat) {c : ConstraintGraph F} {c' : ConstraintGraph G} (h : Mapped φ g l t c c') :
    Sim (Mapped φ g l t) (solveCspLoop jobs fuel c) (solveCspLoop jobs fuel c') := by
  induction fuel generalizing c c' with
  | zero => exact Sim.error _
  | succ fuel ih =>
    unfold solveCspLoop
    refine Sim.bind (solveCspRound_transfer hom hg hl h _) ?_
    rintro ⟨a, b⟩ ⟨_, _⟩ ⟨rfl, hm⟩
    cases b
    · exact Sim.pure hm
    · exact ih hm

theorem solveCsp_transfer (jobs : UInt64) {c : ConstraintGraph F} {c' : ConstraintGraph G} (h : Mapped φ g l t c c') :
    Sim (Mapped2 φ g l t) (solveCsp jobs c) (solveCsp jobs c') := by
  unfold solveCsp
  have hsize : c'.nodesAvailability.size = c.nodesAvailability.size := by
    obtain ⟨rfl, _⟩ := h
    rfl
  rw [hsize]
  refine Sim.bind (solveCspLoop_transfer hom hg hl jobs _ h) ?_
  intro a b hm
  have hm' := hm
  obtain ⟨rfl, _⟩ := hm
  rw [checkNodesLeft_map]
  exact Sim.bind_same fun r => Sim.pure ⟨rfl, hm'⟩

theorem mkConstraintGraph_transfer (t : F) :
    Sim (Mapped φ g l t) (mkConstraintGraph g l t) (mkConstraintGraph (g.mapF φ) (l.mapF φ) (φ t)) := by
  unfold mkConstraintGraph
  refine cfor_sim_same ?_ _ _ _ _ ⟨rfl, rfl, rfl, rfl⟩
  intro x s s' _ hs
  refine Sim.bind (R := Mapped φ g l t) ?_ fun a b h => Sim.pure ⟨rfl, h⟩
  refine cfor_sim_same ?_ _ _ _ _ hs
  intro y s s' _ hs
  refine Sim.bind (R := Mapped φ g l t) ?_ fun a b h => Sim.pure ⟨rfl, h⟩
  refine cfor_sim_same ?_ _ _ _ _ hs
  intro d s s' hc hs
  rw [Bool.and_eq_true, decide_eq_true_eq, decide_eq_true_eq] at hc
  refine Sim.bind (hg.node _) ?_
  rintro p _ ⟨hp, rfl⟩
  refine Sim.bind (lowestPixelPenalty_transfer hl _) ?_
  rintro q _ ⟨hq, rfl⟩
  rw [← hom.sub _ _ hp hq, hom.le]
  split
  · refine Sim.bind (makeNodeAvailable_transfer hs _) ?_
    intro x y hxy
    exact Sim.pure ⟨rfl, hxy⟩
  · exact Sim.pure ⟨rfl, hs⟩

end
end SP
