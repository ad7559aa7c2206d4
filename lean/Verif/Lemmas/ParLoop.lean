import Verif.Lemmas.ParRound
import Verif.Lemmas.SolveCsp
/-!
# All rounds of `solve_csp`
-/
namespace SP
open FloatOps ConstraintGraph
variable {F : Type} [FloatOps F] {c c' : ConstraintGraph F} {B n : Nat} {jobs : UInt64}

theorem LoopTo.basic (h : LoopTo B n jobs c c') (hc : c.Valid) (hj : 0 < jobs.toNat)
    (hfit : c.h + jobs.toNat ≤ 18446744073709551616) (hn : n ≤ 18446744073709551616) :
    c.Same c' ∧ c'.Valid ∧ Sub c'.Av c.Av := by
  induction h with
  | last h => exact h.basic hc hj hfit hn
  | again h h' ih =>
    obtain ⟨a1, a2, a3⟩ := h.basic hc hj hfit hn
    obtain ⟨b1, b2, b3⟩ := ih a2 (by rw [a1.h_eq]; exact hfit)
    exact ⟨a1.trans b1, b2, b3.trans a3⟩

/-- When nothing has to be removed from `S`, one round is made. -/
theorem LoopTo.keeps (h : LoopTo B n jobs c c') (hc : c.Valid) (hp : c.Proper)
    (hj : 0 < jobs.toNat) (hfit : c.h + jobs.toNat ≤ 18446744073709551616) (hn : n ≤ 18446744073709551616)
    {S : NodeSet} (hS : Sub S c.Av) (harc : ArcConsistent c.w c.h c.E S) (hal : AllAlive c.w c.h S) :
    RoundTo B n jobs c c' false ∧ Sub S c'.Av := by
  cases h with
  | last h => exact ⟨h, (h.keeps hc hp hj hfit hn hS harc hal).2⟩
  | again h h' => exact absurd (h.keeps hc hp hj hfit hn hS harc hal).1 (by simp)

/-- If each pixel has at most one node, then in the end either there are no nodes, or each pixel has one and they are all
supported. -/
theorem LoopTo.single (h : LoopTo B n jobs c c') (hc : c.Valid) (hp : c.Proper) (hsg : c.Single)
    (hj : 0 < jobs.toNat) (hfit : c.h + jobs.toNat ≤ 18446744073709551616) (hn : n ≤ 18446744073709551616)
    (hcov : jobs.toNat ≤ n) :
    (∀ x y d, ¬ c'.Av x y d) ∨ (AllAlive c.w c.h c'.Av ∧ ArcConsistent c.w c.h c.E c'.Av) := by
  induction h with
  | last h =>
    rcases h.single hc hp hsg hj hfit hn hcov with h1 | ⟨h1, h2, h3⟩
    · exact .inl h1
    · rw [h1]; exact .inr ⟨h2, h3⟩
  | again h h' ih =>
    obtain ⟨a1, a2, a3⟩ := h.basic hc hj hfit hn
    have := ih a2 (a1.proper hp a3) (fun x y d d' h1 h2 => hsg x y d d' (a3 _ _ _ h1) (a3 _ _ _ h2))
      (by rw [a1.h_eq]; exact hfit)
    rwa [a1.w_eq, a1.h_eq, a1.E_eq] at this

section
variable {solved : Bool} (h : SolveTo B jobs c c' solved) (hc : c.Valid) (hj : 0 < jobs.toNat)
  (hfit : c.h + jobs.toNat ≤ 18446744073709551616)
include h hc hj hfit

theorem SolveTo.basic : c.Same c' ∧ c'.Valid ∧ Sub c'.Av c.Av :=
  h.1.basic hc hj hfit (Nat.le_of_lt (toNat_lt' jobs))

theorem SolveTo.solved_iff : solved = true ↔ ∃ x y d, c'.Av x y d := by
  obtain ⟨b, hb, hiff⟩ := checkNodesLeft_ok (h.basic hc hj hfit).2.1
  rw [h.2] at hb
  cases hb
  exact hiff

theorem SolveTo.keeps (hp : c.Proper) {S : NodeSet} (hS : Sub S c.Av) (harc : ArcConsistent c.w c.h c.E S)
    (hal : AllAlive c.w c.h S) : solved = true ∧ Sub S c'.Av := by
  have hk := (h.1.keeps hc hp hj hfit (Nat.le_of_lt (toNat_lt' jobs)) hS harc hal).2
  refine ⟨?_, hk⟩
  rw [h.solved_iff hc hj hfit]
  obtain ⟨d, hd⟩ := hal 0 0 hc.graph.width_pos hc.graph.height_pos
  exact ⟨0, 0, d, hk _ _ _ hd⟩

theorem SolveTo.single (hp : c.Proper) (hsg : c.Single) (hs : solved = true) :
    AllAlive c.w c.h c'.Av ∧ ArcConsistent c.w c.h c.E c'.Av := by
  rcases h.1.single hc hp hsg hj hfit (Nat.le_of_lt (toNat_lt' jobs)) (Nat.le_refl _) with h1 | h1
  · obtain ⟨x, y, d, hd⟩ := (h.solved_iff hc hj hfit).1 hs
    exact absurd hd (h1 x y d)
  · exact h1

end
end SP
