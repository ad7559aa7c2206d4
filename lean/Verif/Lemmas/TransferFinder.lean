import Verif.Lemmas.TransferCsp
/-!
# The same computation in two arithmetics: thresholds, labelings, maps
-/
namespace SP
open FloatOps
variable {F G : Type} [FloatOps F] [FloatOps G]

section
variable {φ : Recode F G} {P : F → Prop} (hom : Hom φ P)
include hom

theorem insertF_map (a : F) (l : List F) : insertF (φ a) (l.map φ) = (insertF a l).map φ := by
  induction l with
  | nil => rfl
  | cons b l ih =>
    simp only [List.map_cons, insertF, hom.le]
    split
    · rfl
    · rw [ih, List.map_cons]

theorem sortF_map (l : List F) : sortF (l.map φ) = (sortF l).map φ := by
  induction l with
  | nil => rfl
  | cons a l ih => rw [List.map_cons, sortF, ih, insertF_map hom, sortF]

theorem uniqueF_map (l : List F) : uniqueF (l.map φ) = (uniqueF l).map φ := by
  induction l with
  | nil => rfl
  | cons a l ih =>
    rw [List.map_cons, uniqueF, ih, uniqueF]
    cases uniqueF l with
    | nil => rfl
    | cons b l' =>
      simp only [List.map_cons, hom.eq]
      split <;> rfl

theorem mergeF_map (l₁ l₂ : List F) : mergeF (l₁.map φ) (l₂.map φ) = (mergeF l₁ l₂).map φ := by
  induction l₁ generalizing l₂ with
  | nil => rfl
  | cons a l₁ ih =>
    simp only [List.map_cons, mergeF]
    induction l₂ with
    | nil => rfl
    | cons b l₂ ih₂ =>
      simp only [List.map_cons, mergeAux, hom.lt]
      split
      · rw [ih₂, List.map_cons]
      · rw [← List.map_cons, ih, List.map_cons]

variable {g : DisparityGraph F} (hg : Carried φ P g)
include hg

theorem fetchPixelAvailablePenalties_transfer (p : Pixel) {m : F} (hm : P m) :
    Sim (fun a b => b = a.map φ) (fetchPixelAvailablePenalties g p m) (fetchPixelAvailablePenalties (g.mapF φ) p (φ m)) := by
  unfold fetchPixelAvailablePenalties
  refine Sim.bind (R := fun a b => b = a.map φ) ?_ ?_
  · refine cfor_sim_same ?_ _ _ _ _ rfl
    rintro d s _ _ rfl
    refine Sim.bind (hg.node _) ?_
    rintro q _ ⟨hq, rfl⟩
    refine Sim.pure ⟨rfl, ?_⟩
    simp [hom.sub _ _ hq hm]
  · rintro s _ rfl
    exact Sim.pure (by rw [sortF_map hom, uniqueF_map hom])

theorem fetchEdgeAvailablePenalties_transfer (e : Edge) {m : F} (hm : P m) :
    Sim (fun a b => b = a.map φ) (fetchEdgeAvailablePenalties g e m) (fetchEdgeAvailablePenalties (g.mapF φ) e (φ m)) := by
  unfold fetchEdgeAvailablePenalties
  refine Sim.bind (R := fun a b => b = a.map φ) ?_ ?_
  · refine cfor_sim_same ?_ _ _ _ _ rfl
    intro d s t hc hs
    rw [Bool.and_eq_true, decide_eq_true_eq, decide_eq_true_eq] at hc
    refine Sim.bind (R := fun a b => b = a.map φ) ?_ fun a b h => Sim.pure ⟨rfl, h⟩
    refine cfor_sim_same ?_ _ _ _ _ hs
    rintro d' s _ hc' rfl
    rw [Bool.and_eq_true, decide_eq_true_eq, decide_eq_true_eq] at hc'
    refine Sim.bind (hg.edge _ hc.2 hc'.2) ?_
    rintro q _ ⟨hq, rfl⟩
    refine Sim.pure ⟨rfl, ?_⟩
    simp [hom.sub _ _ hq hm]
  · rintro s _ rfl
    exact Sim.pure (by rw [sortF_map hom, uniqueF_map hom])

omit hg in
theorem fetchAvailablePenalties_transfer {l : LowestPenalties F} (hl : CarriedLowest φ P l) :
    Sim (fun a b => b = a.map φ) (fetchAvailablePenalties l) (fetchAvailablePenalties (l.mapF φ)) := by
  unfold fetchAvailablePenalties
  refine cfor_sim_same ?_ _ _ _ _ rfl
  intro x s t _ hs
  refine Sim.bind (R := fun a b => b = a.map φ) ?_ fun a b h => Sim.pure ⟨rfl, h⟩
  refine cfor_sim_same ?_ _ _ _ _ hs
  rintro y s _ _ rfl
  refine Sim.bind (lowestPixelPenalty_transfer hl _) ?_
  rintro q _ ⟨hq, rfl⟩
  refine Sim.bind (fetchPixelAvailablePenalties_transfer hom hl.graph _ hq) ?_
  rintro a _ rfl
  refine Sim.bind (R := fun a b => b = a.map φ) ?_ fun a b h => Sim.pure ⟨rfl, h⟩
  refine cfor_sim_same ?_ _ _ _ _ ?_
  · rintro k s _ _ rfl
    rw [show neighborhoodExistsFast (l.mapF φ).graph { x := x, y := y } k = neighborhoodExistsFast l.graph { x := x, y := y } k from rfl]
    cases neighborhoodExistsFast l.graph { x := x, y := y } k
    · exact Sim.pure ⟨rfl, rfl⟩
    · refine Sim.bind (lowestNeighborhoodPenalty_transfer hl _) ?_
      rintro q _ ⟨hq, rfl⟩
      refine Sim.bind (fetchEdgeAvailablePenalties_transfer hom hl.graph _ hq) ?_
      rintro a _ rfl
      refine Sim.pure ⟨rfl, ?_⟩
      rw [mergeF_map hom, sortF_map hom, uniqueF_map hom]
  · rw [mergeF_map hom, sortF_map hom, uniqueF_map hom]

end

section
variable {φ : Recode F G} {P : F → Prop} {g : DisparityGraph F} {l : LowestPenalties F} {t : F}

section
variable (hom : Hom φ P) (hg : Carried φ P g)
include hom hg

theorem bestPenalty_transfer {c : ConstraintGraph F} {c' : ConstraintGraph G} (h : Mapped φ g l t c c') (p : Pixel) :
    Sim (fun a b => b = φ a) (bestPenalty c p) (bestPenalty c' p) := by
  obtain ⟨rfl, rfl, _, _⟩ := h
  unfold bestPenalty
  refine cfor_sim_same ?_ _ _ _ _ hom.minusOne.symm
  rintro d s _ _ rfl
  refine Sim.bind (show Sim Eq (isNodeAvailable c _) (isNodeAvailable (c.mapF φ) _) from Sim.same _) ?_
  rintro av _ rfl
  cases av
  · exact Sim.pure ⟨rfl, rfl⟩
  · refine Sim.bind (hg.node _) ?_
    rintro q _ ⟨_, rfl⟩
    rw [← hom.zero, hom.lt]
    split
    · exact Sim.pure ⟨rfl, rfl⟩
    · exact Sim.pure ⟨rfl, (hom.min _ _).symm⟩

theorem chooseBestNode_transfer {c : ConstraintGraph F} {c' : ConstraintGraph G} (h : Mapped φ g l t c c') (p : Pixel) :
    Sim (Mapped2 φ g l t) (chooseBestNode c p) (chooseBestNode c' p) := by
  unfold chooseBestNode
  refine Sim.bind (bestPenalty_transfer hom hg h p) ?_
  rintro m _ rfl
  have h' := h
  obtain ⟨rfl, rfl, _, _⟩ := h
  refine cfor_sim_same (R := Mapped2 φ c.disparityGraph l t) ?_ _ _ _ _ ⟨rfl, h'⟩
  rintro d ⟨s, b⟩ ⟨s', _⟩ _ ⟨rfl, hs⟩
  have hs' := hs
  obtain ⟨hmap, hgr, _, _⟩ := hs
  change s' = s.mapF φ at hmap
  subst hmap
  refine Sim.bind (show Sim Eq (isNodeAvailable s _) (isNodeAvailable (s.mapF φ) _) from Sim.same _) ?_
  rintro av _ rfl
  cases av
  · exact Sim.pure ⟨rfl, rfl, hs'⟩
  · refine Sim.bind (R := fun a b => b = φ a) ?_ ?_
    · change s.disparityGraph = c.disparityGraph at hgr
      change Sim _ (nodePenalty s.disparityGraph _) (nodePenalty (s.disparityGraph.mapF φ) _)
      rw [hgr]
      exact (hg.node _).mono fun _ _ h => h.2
    · rintro q _ rfl
      rw [hom.lt]
      cases b || lt m q
      · exact Sim.pure ⟨rfl, rfl, hs'⟩
      · refine Sim.bind (makeNodeUnavailable_transfer hs' _) ?_
        intro x y hxy
        exact Sim.pure ⟨rfl, rfl, hxy⟩

end

theorem buildDisparityMap_map (c : ConstraintGraph F) : buildDisparityMap (c.mapF φ) = buildDisparityMap c := rfl

end
end SP
