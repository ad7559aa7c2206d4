import Verif.Lemmas.Lowest
import Verif.Spec.Input
/-!
# Penalties of a graph without reparametrization
-/
set_option linter.unusedSectionVars false

namespace SP
open FloatOps LawfulFloat
variable {F : Type} [FloatOps F] [LawfulFloat F] {g : DisparityGraph F}

theorem nodeQ_fresh (hphi : ∀ x y d k, g.phi x y d k = zero) (x y d : Nat) :
    g.nodeQ x y d
      = mul g.cleanness (sqr (sub (ofNat (g.right.at x y)) (ofNat (g.left.at (x + d) y)))) := by
  unfold DisparityGraph.nodeQ
  simp only [hphi, LawfulFloat.add_zero]

theorem edgeQ_fresh (hphi : ∀ x y d k, g.phi x y d k = zero) (x y k d d' : Nat) :
    g.edgeQ x y k d d' = mul g.smoothness (sqr (sub (ofNat d) (ofNat d'))) := by
  unfold DisparityGraph.edgeQ
  simp only [hphi, LawfulFloat.sub_zero]

theorem nodeQ_nonneg (hg : g.Fresh) (x y d : Nat) : le zero (g.nodeQ x y d) = true := by
  rw [nodeQ_fresh hg.phi_zero]
  exact mul_nonneg hg.cleanness_nonneg (LawfulFloat.sqr_nonneg _)

theorem edgeQ_nonneg (hg : g.Fresh) (x y k d d' : Nat) : le zero (g.edgeQ x y k d d') = true := by
  rw [edgeQ_fresh hg.phi_zero]
  exact mul_nonneg hg.smoothness_nonneg (LawfulFloat.sqr_nonneg _)

theorem edgeQ_eq (hg : g.Fresh) (x y k d : Nat) : g.edgeQ x y k d d = zero := by
  rw [edgeQ_fresh hg.phi_zero, LawfulFloat.sub_self, sqr_zero, LawfulFloat.mul_zero]

/-- The lowest penalty of each neighborhood of a fresh graph is zero. -/
theorem lowEdge_fresh (hg : g.Fresh) (x y k : Nat) : g.lowEdge x y k = zero := by
  refine LawfulFloat.le_antisymm _ _ ?_ ?_
  · have := (foldl_min_le (fun p : Nat × Nat => g.edgeQ x y k p.1 p.2) (g.scan x y k) (g.edgeQ x y k 0 0)).1
    rw [edgeQ_eq hg] at this
    unfold DisparityGraph.lowEdge
    rw [edgeQ_eq hg]
    exact this
  · rcases foldl_min_mem (fun p : Nat × Nat => g.edgeQ x y k p.1 p.2) (g.scan x y k) (g.edgeQ x y k 0 0)
      with h | ⟨p, _, h⟩
    · unfold DisparityGraph.lowEdge; rw [h]; exact edgeQ_nonneg hg _ _ _ _ _
    · unfold DisparityGraph.lowEdge; rw [h]; exact edgeQ_nonneg hg _ _ _ _ _

/-- Squares of differences: moving the greater argument up makes the square greater. -/
theorem sqr_sub_mono {a b c : Nat} (h1 : c ≤ a) (h2 : a ≤ b) :
    le (sqr (sub (ofNat a) (ofNat c)) : F) (sqr (sub (ofNat b) (ofNat c))) = true :=
  LawfulFloat.sqr_mono _ _ (sub_nonneg (LawfulFloat.ofNat_mono _ _ h1))
    (LawfulFloat.sub_mono _ _ _ (LawfulFloat.ofNat_mono _ _ h2))

/-- Penalties of edges are closed under taking minima: this makes arc consistency decide solvability. -/
theorem edgeQ_min (hg : g.Fresh) {x y k a a' b b' : Nat} {t : F}
    (h1 : le (g.edgeQ x y k a a') t = true) (h2 : le (g.edgeQ x y k b b') t = true) :
    le (g.edgeQ x y k (min a b) (min a' b')) t = true := by
  have key : ∀ {a a' b b' : Nat}, a ≤ b → b' ≤ a' → le (g.edgeQ x y k a a') t = true →
      le (g.edgeQ x y k b b') t = true → le (g.edgeQ x y k a b') t = true := by
    intro a a' b b' hab hab' h1 h2
    rw [edgeQ_fresh hg.phi_zero] at h1 h2 ⊢
    rcases Nat.le_total b' a with h | h
    · exact LawfulFloat.le_trans _ _ _
        (LawfulFloat.mul_mono _ _ _ hg.smoothness_nonneg (sqr_sub_mono h hab)) h2
    · rw [LawfulFloat.sqr_sub_comm] at h1 ⊢
      exact LawfulFloat.le_trans _ _ _
        (LawfulFloat.mul_mono _ _ _ hg.smoothness_nonneg (sqr_sub_mono h hab')) h1
  rcases Nat.le_total a b with h | h <;> rcases Nat.le_total a' b' with h' | h'
  · rw [Nat.min_eq_left h, Nat.min_eq_left h']; exact h1
  · rw [Nat.min_eq_left h, Nat.min_eq_right h']; exact key h h' h1 h2
  · rw [Nat.min_eq_right h, Nat.min_eq_left h']; exact key h h' h2 h1
  · rw [Nat.min_eq_right h, Nat.min_eq_right h']; exact h2

end SP
