import Verif.Model.ParPipeline
import Verif.Lemmas.ParOrder
import Verif.Lemmas.ParFlags
/-!
# A single worker; when the loop `while (changed)` ends
-/
set_option linter.unusedSectionVars false

namespace SP
open FloatOps ConstraintGraph
variable {F : Type} [FloatOps F] {c c' c'' : ConstraintGraph F} {B n : Nat} {jobs : UInt64} {α : Type}

/-- Steps of the only worker: it sees its own stores, so that they are those of `Prog.run`. -/
theorem Steps.one {P Q : Pool α} {fresh : Bool} {group : Nat → Nat} (h : Steps fresh group 1 P Q)
    (hb : (P.prog 0).NoBar) (hs : ∀ w, P.seen 0 w + 1 = (P.mem w).length) :
    (∀ w, Q.seen 0 w + 1 = (Q.mem w).length) ∧
    (Q.prog 0).run (lastOf Q.mem) = (P.prog 0).run (lastOf P.mem) := by
  induction h with
  | refl => exact ⟨hs, rfl⟩
  | @step P1 P2 h h' ih =>
    obtain ⟨i1, i2⟩ := ih
    have hb1 := h.noBar (fun i hi => by obtain rfl : i = 0 := by omega
                                        exact hb) 0 (by omega)
    rw [← i2]
    cases h' with
    | @load i w t k v hi hp hv ht hf =>
      obtain rfl : i = 0 := by omega
      have h1 := i1 w
      have h2 : t < (P1.mem w).length := (List.getElem?_eq_some_iff.1 hv).1
      have h3 : t + 1 = (P1.mem w).length := by omega
      have hvl : v = lastOf P1.mem w := by
        unfold lastOf
        rw [List.getLastD_eq_getLast?, List.getLast?_eq_getElem?, show (P1.mem w).length - 1 = t by omega, hv]
        rfl
      refine ⟨fun w' => ?_, ?_⟩
      · simp only [setAt, if_true]
        split
        · rename_i e; rw [e]; exact h3
        · exact i1 w'
      · simp only [setAt, if_true]
        rw [hp, hvl]
        rfl
    | @store i w k v hi hp =>
      obtain rfl : i = 0 := by omega
      refine ⟨fun w' => ?_, ?_⟩
      · simp only [setAt, if_true]
        split
        · simp
        · exact i1 w'
      · simp only [lastOf_store]
        rw [hp]
        simp only [setAt, if_true]
        rfl
    | @barrier γ k seen hne hp =>
      obtain ⟨i, hi, hγ⟩ := hne
      obtain rfl : i = 0 := by omega
      rw [hp 0 hi hγ] at hb1
      exact hb1.elim

/-- A round of one worker gives what the sequential model says. -/
theorem RoundTo.one {changed : Bool} : RoundTo B 1 jobs c c' changed ↔ runOrder jobs [0] c = .ok (c', changed) := by
  refine ⟨?_, RoundTo.of_order (by simp) (by simp)⟩
  rintro ⟨P, r, hs, hr, hch, rfl⟩
  have hone := hs.one (cspSolutionIteration_noBar _ _) (fun w => rfl)
  rw [hr 0 (by omega)] at hone
  have hrun : Prog.run (.ret (r 0)) (lastOf P.mem) = .ok (r 0, lastOf P.mem) := rfl
  have hsim := cspSolutionIteration_sim (B := B) (c := c) (a := c.nodesAvailability)
    (mem := fun _ => flagsOf c.nodesAvailability) rfl (fun i _ => rfl) jobs 0
  rw [show c.put c.nodesAvailability = c from rfl] at hsim
  have hstart : (Par.cspSolutionIteration B c jobs 0).run (fun _ => flagsOf c.nodesAvailability)
      = .ok (r 0, lastOf P.mem) := by rw [← hrun, hone.2]; rfl
  unfold runOrder runOrder
  rw [show UInt64.ofNat 0 = 0 from rfl]
  cases hm : cspSolutionIteration c jobs 0 with
  | error e =>
    rw [hm] at hsim
    have hsim' : _ = Except.error e := hsim
    rw [hstart] at hsim'
    cases hsim'
  | ok q =>
    obtain ⟨g, b⟩ := q
    rw [hm] at hsim
    obtain ⟨b', mem', e1, rfl, a', h5, h6, h7⟩ := hsim
    rw [hstart] at e1
    simp only [Except.ok.injEq, Prod.mk.injEq] at e1
    obtain ⟨rfl, rfl⟩ := e1
    simp only at h7
    subst h7
    simp only [bind_ok, pure_eq_ok, Bool.or_false, Except.ok.injEq, Prod.mk.injEq]
    refine ⟨?_, ?_⟩
    · unfold put withFlags
      congr 1
      apply Array.ext
      · simp [h5]
      · intro i hi1 hi2
        have := h6 i hi1
        simp only [lastOf] at this
        simp only [current, Array.getElem_ofFn]
        rw [this]
        simp [Array.getD, hi1]
    · rw [Bool.eq_iff_iff, hch]
      constructor
      · exact fun h => ⟨0, by omega, h⟩
      · rintro ⟨i, hi, h⟩
        obtain rfl : i = 0 := by omega
        exact h

/-- With flags in words of their own the loop `while (changed)` makes at most two rounds. -/
theorem not_diverges (hc : c.Valid) (hj : 0 < jobs.toNat) (hfit : c.h + jobs.toNat ≤ 18446744073709551616)
    (hn : n ≤ 18446744073709551616) : ¬ Diverges 1 n jobs c := by
  rintro ⟨f, rfl, hf⟩
  obtain ⟨a1, a2, -⟩ := (hf 0).basic hc hj hfit hn
  obtain ⟨x, y, d, hd⟩ := (hf 1).nonempty a2 hj (by rw [a1.h_eq]; exact hfit) hn
  exact (hf 0).wipes hc hj hfit hn x y d hd

/-- With one worker the size of words does not matter. -/
theorem not_diverges_one (hc : c.Valid) (hj : 0 < jobs.toNat) (hfit : c.h + jobs.toNat ≤ 18446744073709551616) :
    ¬ Diverges B 1 jobs c := by
  rintro ⟨f, h0, hf⟩
  exact not_diverges hc hj hfit (by omega) ⟨f, h0, fun k => RoundTo.one.2 (RoundTo.one.1 (hf k))⟩

end SP
