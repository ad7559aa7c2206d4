import Verif.Lemmas.ParOne
import Verif.Lemmas.Footprint
/-!
# Images of one row: only the first worker has something to do
-/
set_option linter.unusedSectionVars false

namespace SP
open FloatOps ConstraintGraph
variable {F : Type} [FloatOps F] {c c' c'' : ConstraintGraph F} {B n : Nat} {jobs : UInt64} {α : Type}

/-- A worker without rows returns at once. -/
theorem idle_ret {job : UInt64} (h : c.h ≤ job.toNat) : Par.cspSolutionIteration B c jobs job = .ret false := by
  unfold Par.cspSolutionIteration
  rw [if_pos (show job ≥ c.disparityGraph.right.height from UInt64.le_iff_toNat_le.2 h)]
  rfl

/-- If all the workers but the first one have returned in the beginning then there are steps of the first one only. -/
theorem Steps.first {fresh : Bool} {P Q : Pool α} (hs : Steps fresh (fun _ => 0) n P Q)
    (hidle : ∀ i, 0 < i → i < n → ∃ a, P.prog i = .ret a) :
    Steps fresh (fun _ => 0) 1 P Q ∧ ∀ i, 0 < i → Q.prog i = P.prog i := by
  induction hs with
  | refl => exact ⟨.refl _, fun _ _ => rfl⟩
  | @step R S h h' ih =>
    obtain ⟨h1, h2⟩ := ih
    have key : ∀ i, i < n → (∀ a, R.prog i ≠ .ret a) → i = 0 := by
      intro i hi hne
      by_contra h0
      obtain ⟨a, ha⟩ := hidle i (by omega) hi
      exact hne a ((h2 i (by omega)).trans ha)
    cases h' with
    | @load i w t k v hi hp hv ht hf =>
      obtain rfl := key i hi fun a ha => by rw [hp] at ha; cases ha
      refine ⟨.step h1 (.load (by omega) hp hv ht hf), fun j hj => ?_⟩
      rw [← h2 j hj]
      exact if_neg (by omega)
    | @store i w k v hi hp =>
      obtain rfl := key i hi fun a ha => by rw [hp] at ha; cases ha
      refine ⟨.step h1 (.store (by omega) hp), fun j hj => ?_⟩
      rw [← h2 j hj]
      exact if_neg (by omega)
    | @barrier γ k seen hne hp hle hex hout =>
      obtain ⟨i, hi, rfl⟩ := hne
      have h0 : ∀ j, j < n → j = 0 := fun j hj => key j hj fun a ha => by rw [hp j hj rfl] at ha; cases ha
      obtain rfl : n = 1 := by
        have := h0 (n - 1) (by omega)
        omega
      refine ⟨.step h1 (.barrier ⟨0, by omega, rfl⟩ hp hle hex hout), fun j hj => ?_⟩
      rw [← h2 j hj]
      exact if_neg (by omega)

theorem roundStart_idle (h1 : c.h = 1) (hn : n ≤ 18446744073709551616) {i : Nat} (h0 : 0 < i) (hi : i < n) :
    (roundStart B jobs c).prog i = .ret false :=
  idle_ret (by rw [toNat_ofNat_lt (by omega)]; omega)

theorem RoundTo.oneRow {b : Bool} (h : RoundTo B n jobs c c' b) (h1 : c.h = 1) (hn : 0 < n) (hn' : n ≤ 18446744073709551616) :
    RoundTo B 1 jobs c c' b := by
  obtain ⟨P, r, hs, hr, hch, rfl⟩ := h
  obtain ⟨h2, h3⟩ := hs.first fun i h0 hi => ⟨_, roundStart_idle h1 hn' h0 hi⟩
  refine ⟨P, r, h2, fun i hi => hr i (by omega), hch.trans ⟨?_, fun ⟨i, hi, h⟩ => ⟨i, by omega, h⟩⟩, rfl⟩
  rintro ⟨i, hi, h⟩
  by_cases h0 : 0 < i
  · have := (hr i hi).symm.trans ((h3 i h0).trans (roundStart_idle h1 hn' h0 hi))
    simp only [Prog.ret.injEq] at this
    rw [h] at this
    cases this
  · exact ⟨i, by omega, h⟩

theorem LoopTo.oneRow (h : LoopTo B n jobs c c') (h1 : c.h = 1) (hn : 0 < n) (hn' : n ≤ 18446744073709551616) :
    LoopTo B 1 jobs c c' := by
  induction h with
  | last h => exact .last (h.oneRow h1 hn hn')
  | again h _ ih =>
    refine .again (h.oneRow h1 hn hn') (ih ?_)
    obtain ⟨P, r, hs, hr, hch, rfl⟩ := h
    exact h1

theorem Diverges.oneRow (h : Diverges B n jobs c) (h1 : c.h = 1) (hn : 0 < n) (hn' : n ≤ 18446744073709551616) :
    Diverges B 1 jobs c := by
  obtain ⟨f, rfl, hf⟩ := h
  have hh : ∀ k, (f k).h = 1 := by
    intro k
    induction k with
    | zero => exact h1
    | succ k ih =>
      obtain ⟨P, r, hs, hr, hch, e⟩ := hf k
      rw [e]
      exact ih
  exact ⟨f, rfl, fun k => (hf k).oneRow (hh k) hn hn'⟩

/-- For images of one row there is exactly one outcome of `solve_csp`, whatever the number of threads and their speed: that of the
sequential model. -/
theorem SolveOutcome.oneRow {m : M (ConstraintGraph F × Bool)} (hc : c.Valid) (hp : c.Proper) (h1 : c.h = 1) (hj : 0 < jobs.toNat)
    (hfit : c.h + jobs.toNat ≤ 18446744073709551616) : SolveOutcome B jobs c m ↔ m = solveCsp jobs c := by
  have hex : Ok (solveCsp jobs c) fun _ => True := by
    have := solveCsp_mk hc hp hj hfit
    rw [UInt64.ofNat_toNat] at this
    exact this.mono fun _ _ => trivial
  obtain ⟨⟨c1, b1⟩, hseq, -⟩ := hex
  have hto : SolveTo B jobs c c1 b1 := .of_seq hseq
  have hn' : jobs.toNat ≤ 18446744073709551616 := Nat.le_of_lt (toNat_lt' jobs)
  have hto1 := hto.1.oneRow h1 hj hn'
  constructor
  · intro h
    have hres := h.valid hc hj hfit
    cases m with
    | error e => exact absurd (hres.2.oneRow h1 hj hn') hto1.not_diverges
    | ok r =>
      obtain ⟨c2, b2⟩ := r
      have hto2 : SolveTo B jobs c c2 b2 := hres
      obtain rfl := LoopTo.det hto1 (hto2.1.oneRow h1 hj hn')
      have := hto.2.symm.trans hto2.2
      simp only [Except.ok.injEq] at this
      subst this
      rw [hseq]
  · rintro rfl
    rw [hseq]
    exact hto

end SP
