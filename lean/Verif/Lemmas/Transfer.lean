import Verif.Lemmas.Sim
import Verif.Model.ParPipeline
/-!
# The same computation in two arithmetics

`φ` maps numbers of one arithmetic to numbers of another one and keeps comparisons; differences of numbers with the property `P` are kept too. If
penalties of nodes and edges have the property `P` and are kept, then everything computed from them is kept.
-/
namespace SP
open FloatOps
variable {F G : Type} [FloatOps F] [FloatOps G]

/-- A map of numbers together with maps of intensities of images. Other changes than that of numbers are used in `Props/Images.lean`. -/
structure Recode (F G : Type) where
  num : F → G
  left : Array UInt64 → Array UInt64
  right : Array UInt64 → Array UInt64
  maxValue : UInt64 → UInt64
  size : ∀ a, (right a).size = a.size

instance {F G : Type} : CoeFun (Recode F G) fun _ => F → G := ⟨Recode.num⟩

/-- Intensities are kept. -/
abbrev Recode.of {F G : Type} (φ : F → G) : Recode F G := ⟨φ, fun a => a, fun a => a, fun a => a, fun _ => rfl⟩

/-- What is asked of the map. -/
structure Hom (φ : Recode F G) (P : F → Prop) : Prop where
  le : ∀ a b, le (φ a) (φ b) = le a b
  lt : ∀ a b, lt (φ a) (φ b) = lt a b
  eq : ∀ a b, eq (φ a) (φ b) = eq a b
  zero : φ zero = zero
  minusOne : φ minusOne = minusOne
  sub : ∀ a b, P a → P b → φ (sub a b) = sub (φ a) (φ b)
  P_zero : P FloatOps.zero

/-- The graph with its numbers mapped. -/
def DisparityGraph.mapF (φ : Recode F G) (g : DisparityGraph F) : DisparityGraph G :=
  { left := { g.left with data := φ.left g.left.data, maxValue := φ.maxValue g.left.maxValue }
    right := { g.right with data := φ.right g.right.data, maxValue := φ.maxValue g.right.maxValue }
    disparityLevels := g.disparityLevels
    reparametrization := g.reparametrization.map φ
    cleanness := φ g.cleanness
    smoothness := φ g.smoothness }

/-- The same for lowest penalties. -/
def LowestPenalties.mapF (φ : Recode F G) (l : LowestPenalties F) : LowestPenalties G :=
  { graph := l.graph.mapF φ
    pixels := l.pixels.map φ
    neighborhoods := l.neighborhoods.map φ }

/-- The same for the constraint graph. -/
def ConstraintGraph.mapF (φ : Recode F G) (c : ConstraintGraph F) : ConstraintGraph G :=
  { disparityGraph := c.disparityGraph.mapF φ
    lowestPenalties := c.lowestPenalties.mapF φ
    nodesAvailability := c.nodesAvailability
    threshold := φ c.threshold }

/-- Penalties of a graph are kept by the map and have the property. -/
structure Carried (φ : Recode F G) (P : F → Prop) (g : DisparityGraph F) : Prop where
  pos : 0 < g.disparityLevels
  node : ∀ n, Sim (fun a b => P a ∧ b = φ a) (nodePenalty g n) (nodePenalty (g.mapF φ) n)
  edge : ∀ e, e.node.disparity < g.disparityLevels → e.neighbor.disparity < g.disparityLevels →
    Sim (fun a b => P a ∧ b = φ a) (edgePenalty g e) (edgePenalty (g.mapF φ) e)

/-- Lowest penalties of a graph. -/
structure CarriedLowest (φ : Recode F G) (P : F → Prop) (l : LowestPenalties F) : Prop where
  graph : Carried φ P l.graph
  pixels : ∀ a ∈ l.pixels, P a
  neighborhoods : ∀ a ∈ l.neighborhoods, P a

/-- The constraint graph. -/
structure CarriedGraph (φ : Recode F G) (P : F → Prop) (c : ConstraintGraph F) : Prop where
  graph : Carried φ P c.disparityGraph
  lowest : CarriedLowest φ P c.lowestPenalties

/-- Two loops with the same counter; the condition holds in the body. -/
theorem cfor_sim_cond {ι σ τ : Type} {R Q : σ → τ → Prop} {cond : ι → Bool} {step : ι → ι}
    {f : ι → σ → M (σ × Bool)} {g : ι → τ → M (τ × Bool)}
    (hb : ∀ i s t, cond i = true → R s t → Sim (fun a b => a.2 = b.2 ∧ if a.2 then Q a.1 b.1 else R a.1 b.1) (f i s) (g i t))
    (hQ : ∀ s t, R s t → Q s t)
    (fuel : Nat) (i : ι) (s : σ) (t : τ) (h : R s t) :
    Sim Q (cfor fuel i cond step f s) (cfor fuel i cond step g t) := by
  induction fuel generalizing i s t with
  | zero =>
    unfold cfor
    split
    · exact Sim.error _
    · exact hQ _ _ h
  | succ fuel ih =>
    unfold cfor
    split
    · rename_i hc
      have := hb i s t hc h
      cases hf : f i s with
      | error e =>
        cases hg : g i t with
        | error e' => rw [hf, hg] at this; exact this
        | ok b => rw [hf, hg] at this; exact this.elim
      | ok a =>
        cases hg : g i t with
        | error e' => rw [hf, hg] at this; exact this.elim
        | ok b =>
          rw [hf, hg] at this
          obtain ⟨a, ba⟩ := a
          obtain ⟨b, bb⟩ := b
          obtain ⟨h1, h2⟩ := this
          simp only at h1 h2
          subst h1
          cases ba
          · exact ih _ _ _ (by simpa using h2)
          · exact (by simpa using h2 : Q a b)
    · exact hQ _ _ h

/-- Two loops that are never left early, or keep the relation then too. -/
theorem cfor_sim_same {ι σ τ : Type} {R : σ → τ → Prop} {cond : ι → Bool} {step : ι → ι}
    {f : ι → σ → M (σ × Bool)} {g : ι → τ → M (τ × Bool)}
    (hb : ∀ i s t, cond i = true → R s t → Sim (fun a b => a.2 = b.2 ∧ R a.1 b.1) (f i s) (g i t))
    (fuel : Nat) (i : ι) (s : σ) (t : τ) (h : R s t) :
    Sim R (cfor fuel i cond step f s) (cfor fuel i cond step g t) :=
  cfor_sim_cond (fun i s t hc h => (hb i s t hc h).mono fun a b h => ⟨h.1, by split <;> exact h.2⟩) (fun _ _ h => h) fuel i s t h

theorem Sim.pure {α β : Type} {R : α → β → Prop} {a : α} {b : β} (h : R a b) : Sim R (Pure.pure a : M α) (Pure.pure b : M β) := h

theorem Sim.eq {α : Type} {m n : M α} (h : Sim Eq m n) : n = m := by
  cases m <;> cases n
  · exact congrArg _ (show _ = _ from h).symm
  · exact h.elim
  · exact h.elim
  · exact congrArg _ (show _ = _ from h).symm

theorem rd_sim {α β : Type} {φ : α → β} {P : α → Prop} {a : Array α} (h : ∀ x ∈ a, P x) (i : UInt64) :
    Sim (fun x y => P x ∧ y = φ x) (rd a i) (rd (a.map φ) i) := by
  unfold rd
  rw [Array.getElem?_map]
  cases hx : a[i.toNat]? with
  | none => exact Sim.error _
  | some x => exact ⟨h x (Array.mem_of_getElem? hx), rfl⟩

theorem wr_sim {α β : Type} {φ : α → β} {P : α → Prop} {a : Array α} (h : ∀ x ∈ a, P x) (i : UInt64) {v : α} (hv : P v) :
    Sim (fun x y => (∀ z ∈ x, P z) ∧ y = x.map φ) (wr a i v) (wr (a.map φ) i (φ v)) := by
  unfold wr
  rw [Array.size_map]
  split
  · refine ⟨fun z hz => ?_, ?_⟩
    · rcases Array.mem_or_eq_of_mem_setIfInBounds hz with hz | rfl
      · exact h z hz
      · exact hv
    · simp
  · exact Sim.error _

section
variable {φ : Recode F G} {P : F → Prop} (hom : Hom φ P)
include hom

theorem Hom.min (a b : F) : φ (min' a b) = min' (φ a) (φ b) := by
  unfold min'
  rw [hom.le]
  split <;> rfl

omit hom in
theorem min_P {a b : F} (ha : P a) (hb : P b) : P (min' a b) := by
  unfold min'
  split <;> assumption

variable {g : DisparityGraph F} (hg : Carried φ P g)
include hg

theorem calculateLowestPixelPenalty_transfer (pixel : Pixel) :
    Sim (fun a b => P a ∧ b = φ a) (calculateLowestPixelPenalty g pixel) (calculateLowestPixelPenalty (g.mapF φ) pixel) := by
  unfold calculateLowestPixelPenalty
  refine Sim.bind (hg.node _) ?_
  intro a b h
  refine cfor_sim_same ?_ _ _ _ _ h
  rintro d s _ hc ⟨hs, rfl⟩
  rw [Bool.and_eq_true, decide_eq_true_eq, decide_eq_true_eq] at hc
  refine Sim.bind (hg.node _) ?_
  rintro p _ ⟨hp, rfl⟩
  exact Sim.pure ⟨rfl, min_P hp hs, (hom.min _ _).symm⟩

theorem calculateLowestNeighborhoodPenaltyFast_transfer (edge : Edge) (h1 : edge.node.disparity < g.disparityLevels)
    (h2 : edge.neighbor.disparity < g.disparityLevels) :
    Sim (fun a b => P a ∧ b = φ a) (calculateLowestNeighborhoodPenaltyFast g edge)
      (calculateLowestNeighborhoodPenaltyFast (g.mapF φ) edge) := by
  unfold calculateLowestNeighborhoodPenaltyFast
  refine Sim.bind (hg.edge _ h1 h2) ?_
  intro a b h
  refine cfor_sim_same ?_ _ _ _ _ h
  intro d s t hc hs
  rw [Bool.and_eq_true, decide_eq_true_eq, decide_eq_true_eq] at hc
  refine Sim.bind (R := fun a b => P a ∧ b = φ a) ?_ ?_
  · refine cfor_sim_same ?_ _ _ _ _ hs
    rintro d' s _ hc' ⟨hs, rfl⟩
    rw [Bool.and_eq_true, decide_eq_true_eq, decide_eq_true_eq] at hc'
    refine Sim.bind (hg.edge _ hc.2 hc'.2) ?_
    rintro p _ ⟨hp, rfl⟩
    exact Sim.pure ⟨rfl, min_P hp hs, (hom.min _ _).symm⟩
  · intro a b h
    exact Sim.pure ⟨rfl, h⟩

theorem lowestPenaltiesNeighbors_transfer (pixel : Pixel) {a : Array F} (ha : ∀ x ∈ a, P x) :
    Sim (fun x y => (∀ z ∈ x, P z) ∧ y = x.map φ) (lowestPenaltiesNeighbors g pixel a)
      (lowestPenaltiesNeighbors (g.mapF φ) pixel (a.map φ)) := by
  unfold lowestPenaltiesNeighbors
  refine cfor_sim_same ?_ _ _ _ _ ⟨ha, rfl⟩
  rintro n s _ _ ⟨hs, rfl⟩
  rw [show neighborhoodExistsFast (g.mapF φ) pixel n = neighborhoodExistsFast g pixel n from rfl]
  cases neighborhoodExistsFast g pixel n
  · exact Sim.pure ⟨rfl, hs, rfl⟩
  · refine Sim.bind (calculateLowestNeighborhoodPenaltyFast_transfer hom hg _ hg.pos hg.pos) ?_
    rintro p _ ⟨hp, rfl⟩
    refine Sim.bind (wr_sim hs _ hp) ?_
    rintro x _ ⟨hx, rfl⟩
    exact Sim.pure ⟨rfl, hx, rfl⟩

theorem mkLowestPenalties_transfer :
    Sim (fun l l' => l' = l.mapF φ ∧ CarriedLowest φ P l ∧ l.graph = g) (mkLowestPenalties g) (mkLowestPenalties (g.mapF φ)) := by
  unfold mkLowestPenalties
  refine Sim.bind (R := fun s t => ((∀ z ∈ s.1, P z) ∧ t.1 = s.1.map φ) ∧ (∀ z ∈ s.2, P z) ∧ t.2 = s.2.map φ) ?_ ?_
  · refine cfor_sim_same ?_ _ _ _ _ ?_
    · intro x s t _ h
      refine Sim.bind (R := fun s t => ((∀ z ∈ s.1, P z) ∧ t.1 = s.1.map φ) ∧ (∀ z ∈ s.2, P z) ∧ t.2 = s.2.map φ) ?_ ?_
      · refine cfor_sim_same ?_ _ _ _ _ h
        rintro y ⟨s1, s2⟩ ⟨_, _⟩ _ ⟨⟨h1, rfl⟩, h2, rfl⟩
        refine Sim.bind (calculateLowestPixelPenalty_transfer hom hg _) ?_
        rintro p _ ⟨hp, rfl⟩
        refine Sim.bind (wr_sim h1 _ hp) ?_
        rintro x' _ ⟨hx, rfl⟩
        refine Sim.bind (lowestPenaltiesNeighbors_transfer hom hg _ h2) ?_
        rintro y' _ ⟨hy, rfl⟩
        exact Sim.pure ⟨rfl, ⟨hx, rfl⟩, hy, rfl⟩
      · intro a b h
        exact Sim.pure ⟨rfl, h⟩
    · have hz : ∀ n, ∀ z ∈ Array.replicate n (zero : F), P z := by
        intro n z hz
        rw [Array.mem_replicate] at hz
        rw [hz.2]
        exact hom.P_zero
      refine ⟨⟨hz _, ?_⟩, hz _, ?_⟩
      · rw [Array.map_replicate, hom.zero]
        rfl
      · rw [Array.map_replicate, hom.zero]
        rfl
  · rintro ⟨s1, s2⟩ ⟨_, _⟩ ⟨⟨h1, rfl⟩, h2, rfl⟩
    exact Sim.pure ⟨rfl, ⟨hg, h1, h2⟩, rfl⟩

end

section
variable {φ : Recode F G} {P : F → Prop} (hom : Hom φ P)

theorem lowestPixelPenalty_transfer {l : LowestPenalties F} (hl : CarriedLowest φ P l) (pixel : Pixel) :
    Sim (fun a b => P a ∧ b = φ a) (lowestPixelPenalty l pixel) (lowestPixelPenalty (l.mapF φ) pixel) :=
  rd_sim hl.pixels _

theorem lowestNeighborhoodPenalty_transfer {l : LowestPenalties F} (hl : CarriedLowest φ P l) (e : Edge) :
    Sim (fun a b => P a ∧ b = φ a) (lowestNeighborhoodPenalty l e) (lowestNeighborhoodPenalty (l.mapF φ) e) :=
  rd_sim hl.neighborhoods _

end
end SP
