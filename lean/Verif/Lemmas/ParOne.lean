import Verif.Lemmas.ParExec
/-!
# A single worker; the sequential computation as a concurrent one
-/
set_option linter.unusedSectionVars false

namespace SP
open FloatOps ConstraintGraph
variable {F : Type} [FloatOps F] {c c' c'' : ConstraintGraph F} {B : Nat} {jobs : UInt64} {α : Type}

theorem RoundTo.det {b b' : Bool} (h : RoundTo B 1 jobs c c' b) (h' : RoundTo B 1 jobs c c'' b') : c' = c'' ∧ b = b' := by
  rw [RoundTo.one] at h h'
  rw [h] at h'
  simpa using h'

theorem LoopTo.det (h : LoopTo B 1 jobs c c') (h' : LoopTo B 1 jobs c c'') : c' = c'' := by
  induction h with
  | last h =>
    cases h' with
    | last h' => exact (h.det h').1
    | again h' _ => exact absurd (h.det h').2 (by simp)
  | again h _ ih =>
    cases h' with
    | last h' => exact absurd (h.det h').2 (by simp)
    | again h' hl =>
      obtain ⟨rfl, -⟩ := h.det h'
      exact ih hl

theorem LoopTo.not_diverges (h : LoopTo B 1 jobs c c') : ¬ Diverges B 1 jobs c := by
  induction h with
  | last h =>
    rintro ⟨f, rfl, hf⟩
    exact absurd (h.det (hf 0)).2 (by simp)
  | again h _ ih =>
    rintro ⟨f, rfl, hf⟩
    obtain ⟨rfl, -⟩ := h.det (hf 0)
    exact ih ⟨fun k => f (k + 1), rfl, fun k => hf (k + 1)⟩

/-- With one thread there is exactly one outcome: that of the sequential model. -/
theorem SolveOutcome.one {m : M (ConstraintGraph F × Bool)} (hc : c.Valid) (hp : c.Proper)
    (hfit : c.h + 1 ≤ 18446744073709551616) : SolveOutcome B 1 c m ↔ m = solveCsp 1 c := by
  have hex : Ok (solveCsp 1 c) fun _ => True := (solveCsp_mk hc hp (jobs := 1) (by omega) hfit).mono fun _ _ => trivial
  obtain ⟨⟨c1, b1⟩, h1, -⟩ := hex
  have hto : SolveTo B 1 c c1 b1 := .of_seq h1
  constructor
  · intro h
    have hres := h.valid hc (by decide) hfit
    cases m with
    | error e => exact absurd hres.2 hto.1.not_diverges
    | ok r =>
      obtain ⟨c2, b2⟩ := r
      have hto2 : SolveTo B 1 c c2 b2 := hres
      obtain rfl := LoopTo.det hto.1 hto2.1
      have := hto.2.symm.trans hto2.2
      simp only [Except.ok.injEq] at this
      subst this
      rw [h1]
  · rintro rfl
    rw [h1]
    exact hto

/-! ## The sequential computation -/

theorem par_thresholdSearch_seq {p : LowestPenalties F} {g : DisparityGraph F} {arr : Array F} (fuel : Nat)
    (lo hi : UInt64) (calls : Nat) : Par.thresholdSearch (fun _ => solveCsp jobs) p g arr fuel lo hi calls
      = thresholdSearch jobs p g arr fuel lo hi calls := by
  induction fuel generalizing lo hi calls with
  | zero => rfl
  | succ fuel ih =>
    unfold Par.thresholdSearch thresholdSearch
    simp only [ih]

/-- If each call of `solve_csp` has the result of the sequential model, then so does the search for the threshold. -/
theorem par_minimalThreshold_seq (g : DisparityGraph F) :
    (do let (p, t, _) ← Par.minimalThreshold (fun _ => solveCsp jobs) g; return (p, t)) = minimalThreshold jobs g := by
  unfold Par.minimalThreshold minimalThreshold Par.calculateMinimalConsistentThreshold calculateMinimalConsistentThreshold
  simp only [par_thresholdSearch_seq, bind_assoc, pure_bind]

theorem cfor_map {σ τ : Type} (φ : σ → τ) {fuel : Nat} {i : UInt64} {cond : UInt64 → Bool} {step : UInt64 → UInt64}
    {body : UInt64 → σ → M (σ × Bool)} {body' : UInt64 → τ → M (τ × Bool)} {s : σ}
    (h : ∀ i s, (body i s).map (fun r => (φ r.1, r.2)) = body' i (φ s)) :
    (cfor fuel i cond step body s).map φ = cfor fuel i cond step body' (φ s) := by
  induction fuel generalizing i s with
  | zero => unfold cfor; split <;> rfl
  | succ fuel ih =>
    rw [cfor_succ, cfor_succ, ← h i s]
    split
    · cases body i s with
      | error e => rfl
      | ok r =>
        obtain ⟨s1, b⟩ := r
        cases b
        · exact ih
        · rfl
    · rfl

theorem par_findLabeling_seq (n : Nat) (c : ConstraintGraph F) :
    (Par.findLabeling (fun _ => solveCsp jobs) n c).map (fun r => (r.1, r.2.1)) = findLabeling jobs c := by
  unfold Par.findLabeling findLabeling
  rw [cfor_map (fun r : ConstraintGraph F × Bool × Nat => (r.1, r.2.1))]
  intro x s
  rw [← cfor_map (fun r : ConstraintGraph F × Bool × Nat => (r.1, r.2.1)) (s := s) (body := fun y s => do
          let (g, chosen) ← chooseBestNode s.1 { x := x, y := y }
          if !chosen then return ((g, false, s.2.2), true)
          let (g, solved) ← solveCsp jobs g
          if !solved then return ((g, false, s.2.2 + 1), true)
          return ((g, true, s.2.2 + 1), false))]
  · have key : ∀ m : M (ConstraintGraph F × Bool × Nat), Except.map (fun r => ((r.1.1, r.1.2.1), r.2))
        (do let s ← m; pure (s, !s.2.1)) = (do let s ← m.map (fun r => (r.1, r.2.1)); pure (s, !s.2)) := by
      intro m; cases m <;> rfl
    exact key _
  · intro y s
    cases chooseBestNode s.1 { x := x, y := y } with
    | error e => rfl
    | ok r =>
      obtain ⟨g, b⟩ := r
      cases b
      · rfl
      · simp only [bind_ok, Bool.not_true, Bool.false_eq_true, if_false]
        cases solveCsp jobs g with
        | error e => rfl
        | ok r =>
          obtain ⟨g, b⟩ := r
          cases b <;> rfl

theorem par_solvedGraph_seq (g : DisparityGraph F) :
    (Par.solvedGraph (fun _ => solveCsp jobs) g).map (·.1) = solvedGraph jobs g := by
  unfold Par.solvedGraph solvedGraph
  rw [← par_minimalThreshold_seq]
  cases Par.minimalThreshold (fun _ => solveCsp jobs) g with
  | error e => rfl
  | ok r =>
    obtain ⟨p, t, n⟩ := r
    simp only [bind_ok, pure_bind]
    cases mkConstraintGraph g p t with
    | error e => rfl
    | ok c =>
      simp only [bind_ok]
      cases solveCsp jobs c with
      | error e => rfl
      | ok r =>
        obtain ⟨c, b⟩ := r
        cases b <;> rfl

/-- If each call of `solve_csp` has the result of the sequential model, then so does the whole computation. -/
theorem par_disparityMap_seq (g : DisparityGraph F) :
    Par.disparityMap (fun _ => solveCsp jobs) g = disparityMap jobs g := by
  unfold Par.disparityMap Par.solvedGraph disparityMap solvedGraph
  rw [← par_minimalThreshold_seq]
  simp only [bind_assoc, pure_bind]
  refine bind_congr fun r => bind_congr fun c => bind_congr fun r' => ?_
  split
  · rfl
  · simp only [pure_bind]
    rw [← par_findLabeling_seq (jobs := jobs) (r.2.2 + 1)]
    cases Par.findLabeling (fun _ => solveCsp jobs) (r.2.2 + 1) r'.1 <;> rfl

end SP
