import Verif.Lemmas.Fresh
import Verif.Lemmas.Closure
import Verif.Lemmas.Init
/-!
# On a fresh graph the constraints are closed under minima
-/
namespace SP
open FloatOps

/-- Reversing an edge keeps compatibility. -/
def EdgeSymm (w h : Nat) (E : EdgeRel) : Prop :=
  ∀ x y k d d', HasNb w h x y k → E x y k d d' → E (nbx x k) (nby y k) (opp k) d' d

/-- Compatibility is closed under minima. -/
def MinClosed (w h : Nat) (E : EdgeRel) : Prop :=
  ∀ x y k a a' b b', HasNb w h x y k → E x y k a a' → E x y k b b' → E x y k (min a b) (min a' b')

/-- For constraints closed under minima the lowest nodes of an arc consistent set form a labeling. -/
theorem min_labeling {w h : Nat} {E : EdgeRel} {T : NodeSet} (hs : EdgeSymm w h E) (hm : MinClosed w h E)
    (ha : ArcConsistent w h E T) {L : Nat → Nat → Nat}
    (hL : ∀ x y, x < w → y < h → T x y (L x y) ∧ ∀ d, T x y d → L x y ≤ d) : Consistent w h E T L := by
  intro x y hx hy
  refine ⟨(hL x y hx hy).1, fun k hk => ?_⟩
  have hx' := hk.nbx_lt
  have hy' := hk.nby_lt
  obtain ⟨d', h1, h2⟩ := ha _ _ _ (hL x y hx hy).1 k hk
  obtain ⟨d, h3, h4⟩ := ha _ _ _ (hL _ _ hx' hy').1 (opp k) hk.symm
  have h5 := hs _ _ _ _ _ hk.symm h4
  rw [hk.nbx_opp, hk.nby_opp, hk.opp_opp] at h5
  rw [hk.nbx_opp, hk.nby_opp] at h3
  have h6 := hm x y k _ _ _ _ hk h2 h5
  rw [Nat.min_eq_left ((hL x y hx hy).2 d h3), Nat.min_eq_right ((hL _ _ hx' hy').2 d' h1)] at h6
  exact h6

variable {F : Type} [FloatOps F] [LawfulFloat F] {c : ConstraintGraph F}

/-- The constraint graph of a fresh disparity graph with its table of lowest penalties. -/
structure ConstraintGraph.Plain (c : ConstraintGraph F) : Prop where
  fresh : c.disparityGraph.Fresh
  edgeMin : ∀ x y k, HasNb c.w c.h x y k → c.lowestPenalties.edgeMin x y k = zero

omit [LawfulFloat F] in
theorem isEdge_symm {g : DisparityGraph F} {x y k d d' : Nat} (h : g.IsEdge x y k d d') :
    g.IsEdge (nbx x k) (nby y k) (opp k) d' d := by
  obtain ⟨hk, h1, h2, h3⟩ := h
  refine ⟨hk.symm, h2, by rw [hk.nbx_opp, hk.nby_opp]; exact h1, ?_⟩
  have hk4 := hk.lt4
  unfold OrderOK opp at *
  obtain rfl | rfl | rfl | rfl : k = 0 ∨ k = 1 ∨ k = 2 ∨ k = 3 := by omega
  all_goals simp at h3 ⊢
  all_goals omega

theorem ConstraintGraph.Plain.symm (hc : c.Plain) : EdgeSymm c.w c.h c.E := by
  intro x y k d d' hk ⟨h1, h2⟩
  refine ⟨isEdge_symm h1, ?_⟩
  rw [hc.edgeMin _ _ _ hk, edgeQ_fresh hc.fresh.phi_zero] at h2
  rw [hc.edgeMin _ _ _ hk.symm, edgeQ_fresh hc.fresh.phi_zero, LawfulFloat.sqr_sub_comm]
  exact h2

theorem ConstraintGraph.Plain.minClosed (hc : c.Plain) : MinClosed c.w c.h c.E := by
  intro x y k a a' b b' hk ⟨h1, h2⟩ ⟨h3, h4⟩
  rw [hc.edgeMin _ _ _ hk, LawfulFloat.sub_zero] at h2 h4
  refine ⟨⟨hk, ?_, ?_, ?_⟩, ?_⟩
  · rcases Nat.le_total a b with h | h
    · rw [Nat.min_eq_left h]; exact h1.2.1
    · rw [Nat.min_eq_right h]; exact h3.2.1
  · rcases Nat.le_total a' b' with h | h
    · rw [Nat.min_eq_left h]; exact h1.2.2.1
    · rw [Nat.min_eq_right h]; exact h3.2.2.1
  · have o1 := h1.2.2.2
    have o2 := h3.2.2.2
    unfold OrderOK at *
    omega
  · rw [hc.edgeMin _ _ _ hk, LawfulFloat.sub_zero]
    exact edgeQ_min hc.fresh h2 h4

theorem ConstraintGraph.Plain.of_same {c' : ConstraintGraph F} (hc : c.Plain) (h : c.Same c') : c'.Plain := by
  refine ⟨by rw [h.1]; exact hc.fresh, fun x y k hk => ?_⟩
  rw [h.w_eq, h.h_eq] at hk
  rw [h.2.1]
  exact hc.edgeMin x y k hk

/-- What the pipeline builds. -/
theorem pipeline_start {g : DisparityGraph F} (hg : g.Fresh) (t : F) :
    Ok (do let p ← mkLowestPenalties g; mkConstraintGraph g p t) fun c =>
      c.Valid ∧ c.Proper ∧ c.Plain ∧ c.disparityGraph = g ∧ c.threshold = t ∧
      ∀ x y d, c.Av x y d ↔ g.IsNode x y d ∧ le (sub (g.nodeQ x y d) (g.lowPixel x y)) t = true := by
  refine Ok.bind (mkLowestPenalties_mk hg.toValid) ?_
  rintro p ⟨h1, h2, h3, h4⟩
  refine (mkConstraintGraph_mk h2 h1 t).mono ?_
  rintro c ⟨g1, g2, g3, g4, g5⟩
  refine ⟨g4, mkConstraintGraph_proper g1 g5, ⟨by rw [g1]; exact hg, ?_⟩, g1, g3, ?_⟩
  · intro x y k hk
    have hk' : HasNb g.w g.h x y k := by rw [← g1]; exact hk
    rw [g2, h4 x y k hk', lowEdge_fresh hg]
  · intro x y d
    rw [g5]
    unfold startNodes
    constructor
    · rintro ⟨a, b⟩
      rw [h3 x y a.1 a.2.1] at b
      exact ⟨a, b⟩
    · rintro ⟨a, b⟩
      rw [← h3 x y a.1 a.2.1] at b
      exact ⟨a, b⟩

end SP
