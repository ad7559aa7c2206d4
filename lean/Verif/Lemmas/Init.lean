import Verif.Lemmas.Process
import Verif.Lemmas.Lowest
/-!
# Refinement of the constructor of `ConstraintGraph`
-/
set_option linter.unusedSectionVars false

namespace SP
open FloatOps ConstraintGraph
variable {F : Type} [FloatOps F] {g : DisparityGraph F} {p : LowestPenalties F}

/-- Nodes that are available at the start. -/
def startNodes (g : DisparityGraph F) (p : LowestPenalties F) (t : F) : NodeSet := fun x y d =>
  g.IsNode x y d ∧ le (sub (g.nodeQ x y d) (p.pixelMin x y)) t = true

theorem mkConstraintGraph_mk (hp : p.Valid) (hpg : p.graph = g) (t : F) :
    Ok (mkConstraintGraph g p t) fun c =>
      c.disparityGraph = g ∧ c.lowestPenalties = p ∧ c.threshold = t ∧ c.Valid ∧
      ∀ x y d, c.Av x y d ↔ startNodes g p t x y d := by
  subst hpg
  have hg := hp.graph
  have hb := hg.bounds
  have h1 := hb.bw
  have h2 := hb.bh
  have h3 := hb.bl
  have hwl : p.graph.left.width.toNat = p.graph.w := by rw [hg.width_eq]; rfl
  have hll : p.graph.disparityLevels.toNat = p.graph.levels := rfl
  have hN : (nodesCount p.graph).toNat = p.graph.w * p.graph.h * p.graph.levels := by
    have := hb.whl
    unfold nodesCount
    rw [UInt64.toNat_mul, UInt64.toNat_mul]
    simp only [Nat.reducePow, Nat.mod_mul_mod]
    rw [Nat.mod_eq_of_lt]
    · rfl
    · exact this
  unfold mkConstraintGraph
  let c0 : ConstraintGraph F :=
    { disparityGraph := p.graph, lowestPenalties := p, threshold := t
      nodesAvailability := Array.replicate (nodesCount p.graph).toNat false }
  have hc0 : c0.Valid := ⟨hp, rfl, by simp only [c0, Array.size_replicate, hN]⟩
  have hA0 : ∀ x y d, ¬ c0.Av x y d := by
    rintro x y d ⟨_, _, _, h⟩
    simp only [c0] at h
    unfold Array.getD at h
    split at h
    · simp at h
    · simp at h
  let Inv : (Nat → Nat → Nat → Prop) → ConstraintGraph F → Prop := fun D c =>
    c0.Same c ∧ c.Valid ∧ ∀ x y d, c.Av x y d ↔ startNodes p.graph p t x y d ∧ D x y d
  have mono : ∀ {D D' : Nat → Nat → Nat → Prop} {c : ConstraintGraph F}, Inv D c →
      (∀ x y d, p.graph.IsNode x y d → (D x y d ↔ D' x y d)) → Inv D' c := by
    intro D D' c hi h
    refine ⟨hi.1, hi.2.1, fun x y d => (hi.2.2 x y d).trans ?_⟩
    exact ⟨fun ha => ⟨ha.1, (h x y d ha.1.1).1 ha.2⟩, fun ha => ⟨ha.1, (h x y d ha.1.1).2 ha.2⟩⟩
  refine (cfor_all p.graph.w (fun X c => Inv (fun x _ _ => x < X) c)
    (Nat.le_refl _) (fun k hk => cond_lt _ _ hk) ?_ ?_).mono ?_
  · refine ⟨Same.refl c0, hc0, fun x y d => ⟨fun h => absurd h (hA0 x y d), fun h => absurd h.2 (Nat.not_lt_zero _)⟩⟩
  · intro X c hX hi
    refine Ok.bind (cfor_all p.graph.h (fun Y c => Inv (fun x y _ => x < X ∨ (x = X ∧ y < Y)) c)
      (Nat.le_refl _) (fun k hk => cond_lt _ _ hk) ?_ ?_) ?_
    · exact mono hi (by intro x y d _; omega)
    · intro Y c hY hi
      refine Ok.bind (cfor_all (min p.graph.levels (p.graph.w - X))
        (fun D c => Inv (fun x y d => x < X ∨ (x = X ∧ y < Y) ∨ (x = X ∧ y = Y ∧ d < D)) c) ?_ ?_ ?_ ?_) ?_
      · rw [hll]; omega
      · intro k hk
        rw [cond_two (by omega), hwl, hll]
      · exact mono hi (by intro x y d _; omega)
      · intro D c hD hi
        have hn : p.graph.IsNode X Y D := ⟨hX, hY, by omega, by omega⟩
        have e1 : nodePenalty p.graph
            { pixel := { x := UInt64.ofNat X, y := UInt64.ofNat Y }, disparity := UInt64.ofNat D }
            = .ok (p.graph.nodeQ X Y D) := nodePenalty_mk hg hn
        have e2 : lowestPixelPenalty p { x := UInt64.ofNat X, y := UInt64.ofNat Y } = .ok (p.pixelMin X Y) :=
          lowestPixelPenalty_mk hp hX hY
        simp only [e1, e2, bind_ok]
        cases hle : le (sub (p.graph.nodeQ X Y D) (p.pixelMin X Y)) t
        · simp only [Bool.false_eq_true, if_false]
          refine Ok.pure ⟨rfl, hi.1, hi.2.1, fun x y d => (hi.2.2 x y d).trans ?_⟩
          refine ⟨fun ha => ⟨ha.1, by omega⟩, fun ha => ⟨ha.1, ?_⟩⟩
          by_cases hd : x = X ∧ y = Y ∧ d = D
          · obtain ⟨rfl, rfl, rfl⟩ := hd
            have := ha.1.2
            rw [hle] at this
            simp at this
          · have := ha.2
            omega
        · simp only [if_true]
          have hm := makeNodeAvailable_mk (c := c) hi.2.1 (x := X) (y := Y) (d := D)
            (by rw [hi.1.w_eq]; exact hX) (by rw [hi.1.h_eq]; exact hY) (by rw [hi.1.levels_eq]; exact hn.2.2.1)
          refine Ok.bind hm ?_
          rintro c' ⟨g1, g2, g3⟩
          refine Ok.pure ⟨rfl, hi.1.trans g1, g2, fun x y d => (g3 x y d).trans ?_⟩
          rw [hi.2.2]
          constructor
          · rintro (⟨rfl, rfl, rfl⟩ | ha)
            · exact ⟨⟨hn, hle⟩, by omega⟩
            · exact ⟨ha.1, by omega⟩
          · intro ha
            by_cases hd : x = X ∧ y = Y ∧ d = D
            · exact .inl hd
            · exact .inr ⟨ha.1, by have := ha.2; omega⟩
      · intro c hi
        refine Ok.pure ⟨rfl, mono hi ?_⟩
        intro x y d hn
        obtain ⟨_, _, _, _⟩ := hn
        omega
    · intro c hi
      refine Ok.pure ⟨rfl, mono hi ?_⟩
      intro x y d hn
      obtain ⟨_, _, _, _⟩ := hn
      omega
  · rintro c ⟨h1, h2, h3⟩
    refine ⟨h1.1, h1.2.1, h1.2.2, h2, fun x y d => (h3 x y d).trans ?_⟩
    exact ⟨fun h => h.1, fun h => ⟨h, h.1.1⟩⟩

/-- The constraint graph of a fresh table is valid and proper. -/
theorem mkConstraintGraph_proper {c : ConstraintGraph F} (h1 : c.disparityGraph = g)
    (h2 : ∀ x y d, c.Av x y d ↔ startNodes g p t x y d) : c.Proper := by
  intro x y d h
  rw [h1]
  exact ((h2 x y d).1 h).1

end SP
