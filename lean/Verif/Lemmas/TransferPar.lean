import Verif.Lemmas.TransferFinder
import Verif.Lemmas.ParExec
/-!
# The same computation in two arithmetics: threads

Programs of workers do not depend on the arithmetic, so their executions do not either.
-/
namespace SP
open FloatOps
variable {F G : Type} [FloatOps F] [FloatOps G]

/-- Two loops with the same counter and equal bodies while the condition holds. -/
theorem pfor_congr {ι σ : Type} {cond : ι → Bool} {step : ι → ι} {f g : ι → σ → Prog (σ × Bool)}
    (h : ∀ i s, cond i = true → f i s = g i s) (fuel : Nat) (i : ι) (s : σ) :
    pfor fuel i cond step f s = pfor fuel i cond step g s := by
  induction fuel generalizing i s with
  | zero => rfl
  | succ fuel ih =>
    unfold pfor
    split
    · rename_i hc
      rw [h i s hc]
      congr 1
      funext r
      split
      · rfl
      · exact ih _ _
    · rfl

/-- Lifted computations that are related, followed by equal programs. -/
theorem lift_bind {α β γ : Type} {R : α → β → Prop} {m : M α} {n : M β} (h : Sim R m n) {f : α → Prog γ} {g : β → Prog γ}
    (hfg : ∀ a b, R a b → g b = f a) : (Prog.lift n >>= g) = (Prog.lift m >>= f) := by
  cases m <;> cases n
  · exact congrArg Prog.fail (show _ = _ from h).symm
  · exact h.elim
  · exact h.elim
  · exact hfg _ _ h

section
variable {φ : Recode F G} {P : F → Prop} {c : ConstraintGraph F} (hom : Hom φ P) (hc : CarriedGraph φ P c) (B : Nat)
include hom hc

theorem Par.isEdgeAvailable_map (e : Edge) (h1 : e.node.disparity < c.disparityGraph.disparityLevels)
    (h2 : e.neighbor.disparity < c.disparityGraph.disparityLevels) :
    Par.isEdgeAvailable B (c.mapF φ) e = Par.isEdgeAvailable B c e := by
  unfold Par.isEdgeAvailable
  refine lift_bind (hc.graph.edge e h1 h2) ?_
  rintro p _ ⟨hp, rfl⟩
  refine lift_bind (lowestNeighborhoodPenalty_transfer hc.lowest e) ?_
  rintro q _ ⟨hq, rfl⟩
  rw [← hom.sub _ _ hp hq, show (c.mapF φ).threshold = φ c.threshold from rfl, hom.le]
  rfl

theorem Par.edgeFound_map (n : Node) (p : Pixel) (h1 : n.disparity < c.disparityGraph.disparityLevels) :
    Par.edgeFound B (c.mapF φ) n p = Par.edgeFound B c n p := by
  unfold Par.edgeFound
  refine pfor_congr ?_ _ _ _
  intro d s hd
  rw [Bool.and_eq_true, decide_eq_true_eq, decide_eq_true_eq] at hd
  rw [Par.isEdgeAvailable_map hom hc B _ h1 hd.2]

theorem Par.shouldRemoveNode_map (n : Node) (h1 : n.disparity < c.disparityGraph.disparityLevels) :
    Par.shouldRemoveNode B (c.mapF φ) n = Par.shouldRemoveNode B c n := by
  unfold Par.shouldRemoveNode
  simp only [Par.edgeFound_map hom hc B n _ h1]
  rfl

theorem Par.cspProcessPixel_map (p : Pixel) : Par.cspProcessPixel B (c.mapF φ) p = Par.cspProcessPixel B c p := by
  unfold Par.cspProcessPixel
  refine pfor_congr ?_ _ _ _
  intro d s hd
  rw [Bool.and_eq_true, decide_eq_true_eq, decide_eq_true_eq] at hd
  simp only [Par.shouldRemoveNode_map hom hc B { pixel := p, disparity := d } hd.2]
  rfl

theorem Par.cspSolutionIteration_map (jobs i : UInt64) :
    Par.cspSolutionIteration B (c.mapF φ) jobs i = Par.cspSolutionIteration B c jobs i := by
  unfold Par.cspSolutionIteration
  simp only [Par.cspProcessPixel_map hom hc B]
  rfl

theorem roundStart_map (jobs : UInt64) : roundStart B jobs (c.mapF φ) = roundStart B jobs c := by
  unfold roundStart
  simp only [Par.cspSolutionIteration_map hom hc B]
  rfl

end

section
variable {φ : Recode F G} {P : F → Prop} {g : DisparityGraph F} {l : LowestPenalties F} {t : F} (hom : Hom φ P) (hg : Carried φ P g)
  (hl : CarriedLowest φ P l) (B : Nat)
include hom hg hl

omit hom in
theorem Mapped.carried {c : ConstraintGraph F} {c' : ConstraintGraph G} (h : Mapped φ g l t c c') : CarriedGraph φ P c :=
  ⟨h.graph ▸ hg, h.lowest ▸ hl⟩

theorem RoundTo.map {n : Nat} {jobs : UInt64} {c : ConstraintGraph F} {a c' : ConstraintGraph G} {b : Bool}
    (h : RoundTo B n jobs a c' b) (hc : Mapped φ g l t c a) : ∃ d, RoundTo B n jobs c d b ∧ Mapped φ g l t d c' := by
  obtain ⟨Q, r, h1, h2, h3, rfl⟩ := h
  rw [hc.map, roundStart_map hom (hc.carried hg hl) B] at h1
  exact ⟨_, ⟨Q, r, h1, h2, h3, rfl⟩, by rw [hc.map]; rfl, hc.graph, hc.lowest, hc.threshold⟩

theorem LoopTo.map {n : Nat} {jobs : UInt64} {a c' : ConstraintGraph G} (h : LoopTo B n jobs a c') :
    ∀ {c : ConstraintGraph F}, Mapped φ g l t c a → ∃ d, LoopTo B n jobs c d ∧ Mapped φ g l t d c' := by
  induction h with
  | last h =>
    intro c hc
    obtain ⟨d, h1, h2⟩ := RoundTo.map hom hg hl B h hc
    exact ⟨d, .last h1, h2⟩
  | again h _ ih =>
    intro c hc
    obtain ⟨d, h1, h2⟩ := RoundTo.map hom hg hl B h hc
    obtain ⟨e, h4, h5⟩ := ih h2
    exact ⟨e, .again h1 h4, h5⟩

theorem RoundsTo.map {n : Nat} {jobs : UInt64} {a c' : ConstraintGraph G} (h : RoundsTo B n jobs a c') :
    ∀ {c : ConstraintGraph F}, Mapped φ g l t c a → ∃ d, RoundsTo B n jobs c d ∧ Mapped φ g l t d c' := by
  induction h with
  | refl => exact fun {c} hc => ⟨c, .refl c, hc⟩
  | again _ h' ih =>
    intro c hc
    obtain ⟨d, h1, h2⟩ := ih hc
    obtain ⟨e, h4, h5⟩ := RoundTo.map hom hg hl B h' h2
    exact ⟨e, .again h1 h4, h5⟩

theorem Diverges.map {n : Nat} {jobs : UInt64} {c : ConstraintGraph F} {a : ConstraintGraph G} (hc : Mapped φ g l t c a)
    (h : Diverges B n jobs a) : Diverges B n jobs c := by
  obtain ⟨f, h0, hs⟩ := h
  have key : ∀ k (d : { d : ConstraintGraph F // Mapped φ g l t d (f k) }),
      ∃ e : { d : ConstraintGraph F // Mapped φ g l t d (f (k + 1)) }, RoundTo B n jobs d.1 e.1 true := by
    rintro k ⟨d, hd⟩
    obtain ⟨e, h1, h2⟩ := RoundTo.map hom hg hl B (hs k) hd
    exact ⟨⟨e, h2⟩, h1⟩
  choose next hnext using key
  let seq : (k : Nat) → { d : ConstraintGraph F // Mapped φ g l t d (f k) } :=
    fun k => Nat.rec ⟨c, h0 ▸ hc⟩ (fun k d => next k d) k
  exact ⟨fun k => (seq k).1, rfl, fun k => hnext k (seq k)⟩

/-- Each outcome in the second arithmetic corresponds to an outcome in the first one. -/
theorem SolveOutcome.pull {jobs : UInt64} {c : ConstraintGraph F} {a : ConstraintGraph G} (hc : Mapped φ g l t c a)
    {m : M (ConstraintGraph G × Bool)} (h : SolveOutcome B jobs a m) :
    ∃ m', SolveOutcome B jobs c m' ∧ Sim (Mapped2 φ g l t) m' m := by
  rcases m with e | ⟨c', b⟩
  · refine ⟨.error e, ?_, Sim.error _⟩
    rcases h with ⟨he, h⟩ | ⟨c', Q, i, h1, h2, h3, h4⟩ | ⟨c', h1, h2⟩
    · exact .inl ⟨he, Diverges.map hom hg hl B hc h⟩
    · obtain ⟨d, h5, h6⟩ := RoundsTo.map hom hg hl B h1 hc
      rw [h6.map, roundStart_map hom (h6.carried hg hl) B] at h2
      exact .inr (.inl ⟨d, Q, i, h5, h2, h3, h4⟩)
    · obtain ⟨d, h5, h6⟩ := LoopTo.map hom hg hl B h1 hc
      rw [h6.map, checkNodesLeft_map] at h2
      exact .inr (.inr ⟨d, h5, h2⟩)
  · obtain ⟨d, h5, h6⟩ := LoopTo.map hom hg hl B h.1 hc
    exact ⟨.ok (d, b), ⟨h5, by rw [← checkNodesLeft_map (φ := φ), ← h6.map]; exact h.2⟩, rfl, h6⟩

end

/-- Each solver of the second arithmetic corresponds to a solver of the first one. -/
theorem Solver.Possible.pull {φ : Recode F G} {P : F → Prop} (hom : Hom φ P) {B : Nat} {jobs : UInt64} {solve : Solver G}
    (h : solve.Possible B jobs) : ∃ solve' : Solver F, solve'.Possible B jobs ∧
      ∀ n c, CarriedGraph φ P c →
        Sim (Mapped2 φ c.disparityGraph c.lowestPenalties c.threshold) (solve' n c) (solve n (c.mapF φ)) := by
  have key : ∀ n (c : ConstraintGraph F), ∃ m, SolveOutcome B jobs c m ∧ (CarriedGraph φ P c →
      Sim (Mapped2 φ c.disparityGraph c.lowestPenalties c.threshold) m (solve n (c.mapF φ))) := by
    intro n c
    by_cases hc : CarriedGraph φ P c
    · obtain ⟨m, h1, h2⟩ := SolveOutcome.pull hom hc.graph hc.lowest B ⟨rfl, rfl, rfl, rfl⟩ (h n (c.mapF φ))
      exact ⟨m, h1, fun _ => h2⟩
    · obtain ⟨m, hm⟩ := SolveOutcome.exists B jobs c
      exact ⟨m, hm, fun h => absurd h hc⟩
  choose solve' h1 h2 using key
  exact ⟨solve', h1, h2⟩

/-! ## The computation of `main` -/

section
variable {φ : Recode F G} {P : F → Prop} {g : DisparityGraph F} {l : LowestPenalties F} {solve' : Solver F} {solve : Solver G} (hom : Hom φ P)
  (hs : ∀ n c, CarriedGraph φ P c → Sim (Mapped2 φ c.disparityGraph c.lowestPenalties c.threshold) (solve' n c) (solve n (c.mapF φ)))
  (hg : Carried φ P g)
include hom hs hg

omit hom in
theorem solve_transfer {t : F} (hl : CarriedLowest φ P l) (n : Nat) {c : ConstraintGraph F} {c' : ConstraintGraph G}
    (h : Mapped φ g l t c c') : Sim (Mapped2 φ g l t) (solve' n c) (solve n c') := by
  have := hs n c (h.carried hg hl)
  rwa [h.graph, h.lowest, h.threshold, ← h.map] at this

theorem thresholdSearch_transfer (hl : CarriedLowest φ P l) (a : Array F) (fuel : Nat) (start end_ : UInt64) (calls : Nat) :
    Sim Eq (Par.thresholdSearch solve' l g a fuel start end_ calls)
      (Par.thresholdSearch solve (l.mapF φ) (g.mapF φ) (a.map φ) fuel start end_ calls) := by
  induction fuel generalizing start end_ calls with
  | zero => exact Sim.same _
  | succ fuel ih =>
    unfold Par.thresholdSearch
    simp only []
    split
    · refine Sim.bind (rd_sim (φ := φ) (P := fun _ => True) (fun _ _ => trivial) _) ?_
      rintro t _ ⟨_, rfl⟩
      refine Sim.bind (mkConstraintGraph_transfer hom hg hl t) ?_
      intro c c' hc
      refine Sim.bind (solve_transfer hs hg hl _ hc) ?_
      rintro ⟨d, b⟩ ⟨d', _⟩ ⟨rfl, hd⟩
      cases b
      · exact ih _ _ _
      · exact ih _ _ _
    · exact Sim.pure rfl

theorem calculateMinimalConsistentThreshold_transfer (hl : CarriedLowest φ P l) (a : Array F) :
    Sim (fun x y => y.1 = φ x.1 ∧ y.2 = x.2) (Par.calculateMinimalConsistentThreshold solve' l g a)
      (Par.calculateMinimalConsistentThreshold solve (l.mapF φ) (g.mapF φ) (a.map φ)) := by
  unfold Par.calculateMinimalConsistentThreshold
  simp only [Array.size_map]
  refine Sim.bind (thresholdSearch_transfer hom hs hg hl a _ _ _ _) ?_
  rintro ⟨i, n⟩ _ rfl
  refine Sim.bind (rd_sim (φ := φ) (P := fun _ => True) (fun _ _ => trivial) _) ?_
  rintro t _ ⟨_, rfl⟩
  exact Sim.pure ⟨rfl, rfl⟩

theorem minimalThreshold_transfer :
    Sim (fun x y => CarriedLowest φ P x.1 ∧ x.1.graph = g ∧ y = (x.1.mapF φ, φ x.2.1, x.2.2)) (Par.minimalThreshold solve' g)
      (Par.minimalThreshold solve (g.mapF φ)) := by
  unfold Par.minimalThreshold
  refine Sim.bind (mkLowestPenalties_transfer hom hg) ?_
  rintro l _ ⟨rfl, hl, hlg⟩
  refine Sim.bind (fetchAvailablePenalties_transfer hom hl) ?_
  rintro a _ rfl
  rw [← List.map_toArray]
  refine Sim.bind (calculateMinimalConsistentThreshold_transfer hom hs hg hl _) ?_
  rintro ⟨t, n⟩ ⟨t', n'⟩ ⟨h1, h2⟩
  simp only at h1 h2
  subst h1 h2
  exact Sim.pure ⟨hl, hlg, rfl⟩

/-- The constraint graph after `solve_csp`. -/
def SolvedMapped (φ : Recode F G) (P : F → Prop) (g : DisparityGraph F) (x : ConstraintGraph F × Nat) (y : ConstraintGraph G × Nat) : Prop :=
  y = (x.1.mapF φ, x.2) ∧ x.1.disparityGraph = g ∧ CarriedLowest φ P x.1.lowestPenalties

theorem solvedGraph_transfer : Sim (SolvedMapped φ P g) (Par.solvedGraph solve' g) (Par.solvedGraph solve (g.mapF φ)) := by
  unfold Par.solvedGraph
  refine Sim.bind (minimalThreshold_transfer hom hs hg) ?_
  rintro ⟨l, t, n⟩ _ ⟨hl, hlg, rfl⟩
  simp only at hl hlg ⊢
  refine Sim.bind (mkConstraintGraph_transfer hom hg hl t) ?_
  intro c c' hc
  refine Sim.bind (solve_transfer hs hg hl _ hc) ?_
  rintro ⟨d, b⟩ ⟨d', _⟩ ⟨rfl, hd⟩
  cases b
  · exact Sim.error _
  · obtain ⟨hm, h1, h2, _⟩ := hd
    simp only at hm h1 h2
    subst hm
    exact Sim.pure ⟨rfl, h1, h2.symm ▸ hl⟩

/-- States of `find_labeling`. -/
def Mapped3 (φ : Recode F G) (g : DisparityGraph F) (l : LowestPenalties F) (t : F) (a : ConstraintGraph F × Bool × Nat)
    (b : ConstraintGraph G × Bool × Nat) : Prop := b.2 = a.2 ∧ Mapped φ g l t a.1 b.1

theorem parFindLabeling_transfer {t : F} (hl : CarriedLowest φ P l) (n : Nat) {c : ConstraintGraph F} {c' : ConstraintGraph G}
    (h : Mapped φ g l t c c') : Sim (Mapped3 φ g l t) (Par.findLabeling solve' n c) (Par.findLabeling solve n c') := by
  have h' := h
  obtain ⟨rfl, rfl, _, _⟩ := h
  unfold Par.findLabeling
  refine cfor_sim_same (R := Mapped3 φ c.disparityGraph l t) ?_ _ _ _ _ ⟨rfl, h'⟩
  intro x s s' _ hs'
  refine Sim.bind (R := Mapped3 φ c.disparityGraph l t) ?_ ?_
  · refine cfor_sim_same ?_ _ _ _ _ hs'
    rintro y ⟨s, k⟩ ⟨s', _⟩ _ ⟨rfl, hss⟩
    refine Sim.bind (chooseBestNode_transfer hom hg hss _) ?_
    rintro ⟨d, b⟩ ⟨d', _⟩ ⟨rfl, hd⟩
    cases b
    · exact Sim.pure ⟨rfl, rfl, hd⟩
    · refine Sim.bind (solve_transfer hs hg hl _ hd) ?_
      rintro ⟨e, b⟩ ⟨e', _⟩ ⟨rfl, he⟩
      cases b
      · exact Sim.pure ⟨rfl, rfl, he⟩
      · exact Sim.pure ⟨rfl, rfl, he⟩
  · rintro ⟨s, k⟩ ⟨s', _⟩ ⟨rfl, hss⟩
    exact Sim.pure ⟨rfl, rfl, hss⟩

theorem labelCpu_transfer {t : F} (hl : CarriedLowest φ P l) (n : Nat) {c : ConstraintGraph F} {c' : ConstraintGraph G}
    (h : Mapped φ g l t c c') : Sim (Mapped2 φ g l t) (Par.labelCpu solve' n c) (Par.labelCpu solve n c') := by
  unfold Par.labelCpu
  refine Sim.bind (parFindLabeling_transfer hom hs hg hl n h) ?_
  rintro ⟨s, b, k⟩ ⟨s', _⟩ ⟨rfl, hss⟩
  exact Sim.pure ⟨rfl, hss⟩

/-- The map, if labelings found correspond to each other. -/
theorem labeledMap_transfer {label' : Nat → ConstraintGraph F → M (ConstraintGraph F × Bool)}
    {label : Nat → ConstraintGraph G → M (ConstraintGraph G × Bool)}
    (hlab : ∀ n c, c.disparityGraph = g → CarriedLowest φ P c.lowestPenalties →
      Sim (Mapped2 φ c.disparityGraph c.lowestPenalties c.threshold) (label' n c) (label n (c.mapF φ))) :
    Par.labeledMap solve label (g.mapF φ) = Par.labeledMap solve' label' g := by
  refine Sim.eq ?_
  unfold Par.labeledMap
  refine Sim.bind (solvedGraph_transfer hom hs hg) ?_
  rintro ⟨c, n⟩ _ ⟨rfl, h1, h2⟩
  simp only at h1 h2 ⊢
  refine Sim.bind (hlab n c h1 h2) ?_
  rintro ⟨d, b⟩ ⟨d', _⟩ ⟨rfl, hd⟩
  cases b
  · exact Sim.error _
  · obtain ⟨hm, _⟩ := hd
    simp only at hm
    subst hm
    exact Sim.same _

end
end SP
