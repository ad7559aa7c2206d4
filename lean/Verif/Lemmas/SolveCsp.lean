import Verif.Lemmas.Solve
/-!
# Refinement of `solve_csp`
-/
set_option linter.unusedSectionVars false

namespace SP
open FloatOps ConstraintGraph

/-- The order in which the jobs, executed one after another, process pixels. -/
def solveOrder (w h jobs : Nat) : List (Nat × Nat) :=
  (List.range jobs).flatMap fun i => jobPixels w jobs i (jobRows h jobs i)

theorem mem_jobPixels {w h jobs job : Nat} (hj : 0 < jobs) {p : Nat × Nat} :
    p ∈ jobPixels w jobs job (jobRows h jobs job) ↔
      p.1 < w ∧ p.2 < h ∧ ∃ i, p.2 = job + i * jobs := by
  unfold jobPixels
  simp only [List.mem_flatMap, List.mem_range, List.mem_map]
  constructor
  · rintro ⟨i, hi, x, hx, rfl⟩
    exact ⟨hx, (jobRows_lt hj).1 hi, i, rfl⟩
  · rintro ⟨hx, hy, i, hi⟩
    refine ⟨i, (jobRows_lt hj).2 (by omega), p.1, hx, ?_⟩
    rw [← hi]

theorem mem_solveOrder {w h jobs : Nat} (hj : 0 < jobs) {p : Nat × Nat} :
    p ∈ solveOrder w h jobs ↔ p.1 < w ∧ p.2 < h := by
  unfold solveOrder
  simp only [List.mem_flatMap, List.mem_range]
  constructor
  · rintro ⟨i, hi, hp⟩
    rw [mem_jobPixels hj] at hp
    exact ⟨hp.1, hp.2.1⟩
  · rintro ⟨hx, hy⟩
    refine ⟨p.2 % jobs, Nat.mod_lt _ hj, ?_⟩
    rw [mem_jobPixels hj]
    refine ⟨hx, hy, p.2 / jobs, ?_⟩
    have := Nat.mod_add_div p.2 jobs
    rw [Nat.mul_comm]
    omega

theorem sweep_other {w h : Nat} {E : EdgeRel} {S : NodeSet} {ps : List (Nat × Nat)} {x y : Nat}
    (hp : (x, y) ∉ ps) (d : Nat) : sweep w h E ps S x y d ↔ S x y d := by
  induction ps generalizing S with
  | nil => exact Iff.rfl
  | cons p ps ih =>
    simp only [List.mem_cons, not_or] at hp
    rw [sweep_cons, ih hp.2, removeUnsupported_other]
    rintro ⟨h1, h2⟩
    exact hp.1 (by rw [h1, h2])

variable {F : Type} [FloatOps F] {c : ConstraintGraph F}

theorem Good.trans {ps qs : List (Nat × Nat)} {s s' : ConstraintGraph F} (h : Good c ps s) (h' : Good s qs s') :
    Good c (ps ++ qs) s' := by
  obtain ⟨a1, a2, a3, a4⟩ := h
  obtain ⟨b1, b2, b3, b4⟩ := h'
  rw [a1.w_eq, a1.h_eq, a1.E_eq] at b3
  refine ⟨a1.trans b1, b2, by rw [sweep_append, b3, a3], ?_⟩
  intro p hp
  by_cases hq : p ∈ qs
  · exact b4 p hq
  · have hps : p ∈ ps := by
      rcases List.mem_append.1 hp with h | h
      · exact h
      · exact absurd h hq
    obtain ⟨d, hd⟩ := a4 p hps
    refine ⟨d, ?_⟩
    rw [b3]
    exact (sweep_other hq d).2 hd

/-- Some pixel of the list has no node after the sweep. -/
def DeadIn (c : ConstraintGraph F) (ps : List (Nat × Nat)) : Prop :=
  ∃ p ∈ ps, ∀ d, ¬ sweep c.w c.h c.E ps c.Av p.1 p.2 d

theorem DeadIn.append {ps qs : List (Nat × Nat)} (h : DeadIn c ps) : DeadIn c (ps ++ qs) := by
  obtain ⟨p, hp, hd⟩ := h
  refine ⟨p, List.mem_append_left _ hp, fun d => ?_⟩
  rw [sweep_append]
  exact fun hs => hd d (sweep_sub qs _ _ _ hs)

theorem Bad.dead {ps : List (Nat × Nat)} {s : ConstraintGraph F} (h : Bad c ps s) : DeadIn c ps := by
  obtain ⟨_, _, pre, p, post, e, _, hav, hd⟩ := h
  have e' : ps = (pre ++ [p]) ++ post := by simp [e]
  rw [e']
  refine DeadIn.append ⟨p, by simp, ?_⟩
  rw [← hav]
  exact hd

theorem Good.dead {ps qs : List (Nat × Nat)} {s : ConstraintGraph F} (h : Good c ps s) (h' : DeadIn s qs) :
    DeadIn c (ps ++ qs) := by
  obtain ⟨a1, a2, a3, a4⟩ := h
  obtain ⟨p, hp, hd⟩ := h'
  rw [a1.w_eq, a1.h_eq, a1.E_eq, a3] at hd
  refine ⟨p, List.mem_append_right _ hp, ?_⟩
  rw [sweep_append]
  exact hd

theorem sweep_empty {w h : Nat} {E : EdgeRel} {S : NodeSet} (hS : ∀ x y d, ¬ S x y d) (ps : List (Nat × Nat))
    (x y d : Nat) : ¬ sweep w h E ps S x y d := fun hs => hS _ _ _ (sweep_sub ps _ _ _ hs)

theorem Good.not_dead {ps : List (Nat × Nat)} {s : ConstraintGraph F} (h : Good c ps s) : ¬ DeadIn c ps := by
  rintro ⟨p, hp, hd⟩
  obtain ⟨d, hd'⟩ := h.2.2.2 p hp
  rw [h.2.2.1] at hd'
  exact hd d hd'

/-- One round of the loop `while (changed)`. -/
theorem solveCspRound_mk (hc : c.Valid) (hp : c.Proper) {jobs : Nat}
    (hj : 0 < jobs) (hfit : c.h + jobs ≤ 18446744073709551616) :
    Ok (solveCspRound (UInt64.ofNat jobs) c) fun r => c.Same r.1 ∧ r.1.Valid ∧
      ((r.2 = false ∧ Good c (solveOrder c.w c.h jobs) r.1) ∨
       (DeadIn c (solveOrder c.w c.h jobs) ∧ (∀ x y d, ¬ r.1.Av x y d) ∧
        (r.2 = true → ∃ x y d, c.Av x y d))) := by
  have hhp : 0 < c.h := hc.graph.height_pos
  unfold solveCspRound
  have e : (UInt64.ofNat jobs).toNat = jobs := toNat_ofNat_lt (by omega)
  refine (cfor_all jobs (fun i r => c.Same r.1 ∧ r.1.Valid ∧
      let ps := (List.range i).flatMap fun i => jobPixels c.w jobs i (jobRows c.h jobs i)
      ((r.2 = false ∧ Good c ps r.1) ∨
       (DeadIn c ps ∧ (∀ x y d, ¬ r.1.Av x y d) ∧ (r.2 = true → ∃ x y d, c.Av x y d))))
    (by omega) ?_ ?_ ?_).mono (fun r h => h)
  · intro k hk
    rw [cond_lt _ _ (by omega), e]
  · exact ⟨Same.refl c, hc, .inl ⟨rfl, Same.refl c, hc, rfl, by simp⟩⟩
  · rintro i ⟨s, ch⟩ hi ⟨h1, h2, h3⟩
    simp only at h1 h2 h3 ⊢
    have hsp : s.Proper := by
      refine h1.proper hp ?_
      rcases h3 with ⟨-, h⟩ | ⟨-, h, -⟩
      · rw [h.2.2.1]; exact sweep_sub _
      · exact fun x y d hs => absurd hs (h x y d)
    refine Ok.bind (cspSolutionIteration_mk h2 hsp hj (by rw [h1.h_eq]; exact hfit)
      (show i < 18446744073709551616 by omega)) ?_
    rintro ⟨g, b⟩ ⟨g1, g2, g3⟩
    simp only [h1.w_eq, h1.h_eq] at g1 g2 g3
    refine Ok.pure ⟨rfl, h1.trans g1, g2, ?_⟩
    simp only [List.range_succ, List.flatMap_append, List.flatMap_cons, List.flatMap_nil, List.append_nil]
    rcases h3 with ⟨rfl, h⟩ | ⟨hd, he, ht⟩
    · rcases g3 with ⟨rfl, hg⟩ | ⟨s', hb, he, ht⟩
      · exact .inl ⟨rfl, h.trans hg⟩
      · refine .inr ⟨h.dead hb.dead, he, ?_⟩
        simp only [Bool.false_or]
        intro hbt
        obtain ⟨x, y, d, hav⟩ := ht.1 hbt
        obtain ⟨_, _, pre, p, post, _, _, hsav, _⟩ := hb
        rw [hsav] at hav
        have := sweep_sub _ _ _ _ hav
        rw [h.2.2.1] at this
        exact ⟨x, y, d, sweep_sub _ _ _ _ this⟩
    · refine .inr ⟨hd.append, ?_, ?_⟩
      · rcases g3 with ⟨-, hg⟩ | ⟨-, -, h', -⟩
        · rw [hg.2.2.1]; exact sweep_empty he _
        · exact h'
      · simp only [Bool.or_eq_true]
        rintro (h | h)
        · exact ht h
        · exfalso
          rcases g3 with ⟨hb, -⟩ | ⟨s', hb, -, hiff⟩
          · simp [hb] at h
          · obtain ⟨x, y, d, hav⟩ := hiff.1 h
            obtain ⟨_, _, pre, p, post, _, _, hsav, _⟩ := hb
            rw [hsav] at hav
            exact sweep_empty he _ _ _ _ hav

/-- The loop of `solve_csp` ends after at most two rounds. -/
theorem solveCspLoop_mk (hc : c.Valid) (hp : c.Proper) {jobs : Nat}
    (hj : 0 < jobs) (hfit : c.h + jobs ≤ 18446744073709551616) (fuel : Nat) :
    Ok (solveCspLoop (UInt64.ofNat jobs) (fuel + 2) c) fun s => c.Same s ∧ s.Valid ∧
      (Good c (solveOrder c.w c.h jobs) s ∨
       (DeadIn c (solveOrder c.w c.h jobs) ∧ ∀ x y d, ¬ s.Av x y d)) := by
  unfold solveCspLoop
  refine Ok.bind (solveCspRound_mk hc hp hj hfit) ?_
  rintro ⟨s, ch⟩ ⟨h1, h2, h3⟩
  simp only at h1 h2 h3 ⊢
  rcases h3 with ⟨rfl, h⟩ | ⟨hd, he, -⟩
  · simp only [Bool.false_eq_true, if_false]
    exact Ok.pure ⟨h1, h2, .inl h⟩
  · cases ch
    · simp only [Bool.false_eq_true, if_false]
      exact Ok.pure ⟨h1, h2, .inr ⟨hd, he⟩⟩
    · simp only [if_true]
      have hsp : s.Proper := h1.proper hp fun x y d hs => absurd hs (he x y d)
      unfold solveCspLoop
      refine Ok.bind (solveCspRound_mk h2 hsp hj (by rw [h1.h_eq]; exact hfit)) ?_
      rintro ⟨s', ch'⟩ ⟨g1, g2, g3⟩
      simp only at g1 g2 g3 ⊢
      rcases g3 with ⟨rfl, h⟩ | ⟨_, he', ht⟩
      · simp only [Bool.false_eq_true, if_false]
        refine Ok.pure ⟨h1.trans g1, g2, .inr ⟨hd, ?_⟩⟩
        rw [h.2.2.1]
        exact sweep_empty he _
      · cases ch'
        · simp only [Bool.false_eq_true, if_false]
          exact Ok.pure ⟨h1.trans g1, g2, .inr ⟨hd, he'⟩⟩
        · obtain ⟨x, y, d, hav⟩ := ht rfl
          exact absurd hav (he x y d)

theorem solveCspLoop_fuel (jobs : UInt64) (fuel : Nat) (c s : ConstraintGraph F)
    (h : solveCspLoop jobs fuel c = .ok s) (n : Nat) : solveCspLoop jobs (fuel + n) c = .ok s := by
  induction fuel generalizing c with
  | zero => simp [solveCspLoop] at h
  | succ fuel ih =>
    rw [Nat.add_right_comm]
    unfold solveCspLoop at h ⊢
    cases hr : solveCspRound jobs c with
    | error e => simp [hr] at h
    | ok r =>
      rw [hr] at h
      simp only [bind_ok] at h ⊢
      split
      · rename_i hc
        rw [if_pos hc] at h
        exact ih _ h
      · rename_i hc
        rw [if_neg hc] at h
        exact h

/-- Exact outcome of `solve_csp` executed by `jobs` workers one after another: the result of a single sweep over the image
if it leaves every pixel alive, and the empty set otherwise. -/
theorem solveCsp_mk (hc : c.Valid) (hp : c.Proper) {jobs : Nat}
    (hj : 0 < jobs) (hfit : c.h + jobs ≤ 18446744073709551616) :
    Ok (solveCsp (UInt64.ofNat jobs) c) fun r => c.Same r.1 ∧ r.1.Valid ∧
      let S := sweep c.w c.h c.E (solveOrder c.w c.h jobs) c.Av
      ((AllAlive c.w c.h S ∧ r.1.Av = S ∧ r.2 = true) ∨
       (¬ AllAlive c.w c.h S ∧ (∀ x y d, ¬ r.1.Av x y d) ∧ r.2 = false)) := by
  have hwp : 0 < c.w := hc.graph.width_pos
  have hhp : 0 < c.h := hc.graph.height_pos
  unfold solveCsp
  refine Ok.bind (solveCspLoop_mk hc hp hj hfit _) ?_
  rintro s ⟨h1, h2, h3⟩
  refine Ok.bind (checkNodesLeft_ok h2) ?_
  intro b hb
  refine Ok.pure ⟨h1, h2, ?_⟩
  simp only
  rcases h3 with h | ⟨⟨p, hp', hd⟩, he⟩
  · have hal : AllAlive c.w c.h (sweep c.w c.h c.E (solveOrder c.w c.h jobs) c.Av) := by
      intro x y hx hy
      have := h.2.2.2 (x, y) ((mem_solveOrder hj).2 ⟨hx, hy⟩)
      rwa [h.2.2.1] at this
    refine .inl ⟨hal, h.2.2.1, ?_⟩
    rw [hb, h.2.2.1]
    obtain ⟨d, hd⟩ := hal 0 0 hwp hhp
    exact ⟨0, 0, d, hd⟩
  · refine .inr ⟨?_, he, ?_⟩
    · intro hal
      rw [mem_solveOrder hj] at hp'
      obtain ⟨d, hd'⟩ := hal p.1 p.2 hp'.1 hp'.2
      exact hd d hd'
    · cases b
      · rfl
      · obtain ⟨x, y, d, h⟩ := hb.1 rfl
        exact absurd h (he x y d)

end SP
