import Verif.Lemmas.Process
import Verif.Lemmas.Csp
/-!
# Refinement of `csp_solution_iteration` and `solve_csp`
-/
set_option linter.unusedSectionVars false

namespace SP
open FloatOps ConstraintGraph
variable {F : Type} [FloatOps F] {c : ConstraintGraph F}

/-- Pixels of the first `n` rows `job, job + jobs, job + 2 * jobs, …`. -/
def jobPixels (w jobs job n : Nat) : List (Nat × Nat) :=
  (List.range n).flatMap fun i => (List.range w).map fun x => (x, job + i * jobs)

/-- Number of rows of a job. -/
def jobRows (h jobs job : Nat) : Nat := (h - job + (jobs - 1)) / jobs

theorem jobPixels_succ (w jobs job n : Nat) :
    jobPixels w jobs job (n + 1)
      = jobPixels w jobs job n ++ (List.range w).map fun x => (x, job + n * jobs) := by
  simp [jobPixels, List.range_succ]

theorem jobRows_lt {h jobs job i : Nat} (hj : 0 < jobs) :
    i < jobRows h jobs job ↔ job + i * jobs < h := by
  unfold jobRows
  rw [Nat.lt_iff_add_one_le, Nat.le_div_iff_mul_le hj, Nat.add_mul]
  omega

theorem ConstraintGraph.Same.proper {c c' : ConstraintGraph F} (h : c.Same c') (hp : c.Proper)
    (hs : Sub c'.Av c.Av) : c'.Proper := by
  intro x y d ha
  rw [h.1]
  exact hp x y d (hs x y d ha)

/-- State of the sweep after processing `ps`, each processed pixel having a node left. -/
def Good (c : ConstraintGraph F) (ps : List (Nat × Nat)) (s : ConstraintGraph F) : Prop :=
  c.Same s ∧ s.Valid ∧ s.Av = sweep c.w c.h c.E ps c.Av ∧ ∀ p ∈ ps, ∃ d, s.Av p.1 p.2 d

/-- State of the sweep of `ps` that stopped because a pixel lost its last node. -/
def Bad (c : ConstraintGraph F) (ps : List (Nat × Nat)) (s : ConstraintGraph F) : Prop :=
  c.Same s ∧ s.Valid ∧ ∃ pre p post, ps = pre ++ p :: post ∧
    (∀ q ∈ pre, ∃ d, sweep c.w c.h c.E pre c.Av q.1 q.2 d) ∧
    s.Av = sweep c.w c.h c.E (pre ++ [p]) c.Av ∧ ∀ d, ¬ s.Av p.1 p.2 d

theorem Bad.append {ps qs : List (Nat × Nat)} {s : ConstraintGraph F} (h : Bad c ps s) : Bad c (ps ++ qs) s := by
  obtain ⟨a, b, pre, p, post, e, r⟩ := h
  exact ⟨a, b, pre, p, post ++ qs, by simp [e], r⟩

theorem Good.proper {ps : List (Nat × Nat)} {s : ConstraintGraph F} (h : Good c ps s) (hp : c.Proper) :
    s.Proper := h.1.proper hp (by rw [h.2.2.1]; exact sweep_sub _)

theorem process_step (hp : c.Proper) {ps : List (Nat × Nat)} {s : ConstraintGraph F}
    (hs : Good c ps s) {x y : Nat} (hx : x < c.w) (hy : y < c.h) :
    Ok (do
      let (g, _) ← cspProcessPixel s (mkPixel x y)
      let pixel_available ← pixelAvailable g (mkPixel x y)
      if !pixel_available then return ((g, pixel_available), true)
      return ((g, pixel_available), false) : M ((ConstraintGraph F × Bool) × Bool))
    fun r => (r.2 = true ∧ r.1.2 = false ∧ Bad c (ps ++ [(x, y)]) r.1.1) ∨
      (r.2 = false ∧ r.1.2 = true ∧ Good c (ps ++ [(x, y)]) r.1.1) := by
  have hsp := hs.proper hp
  obtain ⟨hsame, hv, hav, hal⟩ := hs
  refine Ok.bind (cspProcessPixel_mk hv hsp (hsame.w_eq ▸ hx) (hsame.h_eq ▸ hy)) ?_
  rintro ⟨g, ch⟩ ⟨g1, g2, g3, -⟩
  simp only at g1 g2 g3 ⊢
  rw [hsame.w_eq, hsame.h_eq, hsame.E_eq] at g3
  have hgs : c.Same g := hsame.trans g1
  have hgp : g.Proper := g1.proper hsp (by rw [g3]; exact removeUnsupported_sub _ _)
  have hsw : g.Av = sweep c.w c.h c.E (ps ++ [(x, y)]) c.Av := by rw [sweep_snoc, ← hav, g3]
  refine Ok.bind (pixelAvailable_mk g2 hgp (hgs.w_eq ▸ hx) (hgs.h_eq ▸ hy)) ?_
  intro b hb
  cases b
  · simp only [Bool.not_false, if_true]
    refine Ok.pure (.inl ⟨rfl, rfl, hgs, g2, ps, (x, y), [], rfl, ?_, hsw, ?_⟩)
    · rw [← hav]; exact hal
    · intro d hd
      exact absurd (hb.2 ⟨d, hd⟩) (by simp)
  · simp only [Bool.not_true, Bool.false_eq_true, if_false]
    refine Ok.pure (.inr ⟨rfl, rfl, hgs, g2, hsw, ?_⟩)
    intro q hq
    by_cases hqx : q.1 = x ∧ q.2 = y
    · obtain ⟨h1, h2⟩ := hqx
      rw [h1, h2]
      exact hb.1 rfl
    · have : q ∈ ps := by
        rcases List.mem_append.1 hq with h | h
        · exact h
        · simp at h; subst h; simp at hqx
      obtain ⟨d, hd⟩ := hal q this
      refine ⟨d, ?_⟩
      rw [g3, removeUnsupported_other hqx]
      exact hd

theorem row_step (hc : c.Valid) (hp : c.Proper) {ps : List (Nat × Nat)} {s : ConstraintGraph F} {b0 : Bool}
    (hs : Good c ps s) {y : Nat} (hy : y < c.h) :
    Ok (cfor c.disparityGraph.right.width.toNat 0
        (fun x => decide (x < c.disparityGraph.right.width)) inc
        (fun x (s : ConstraintGraph F × Bool) => do
          let pixel : Pixel := { x := x, y := UInt64.ofNat y }
          let (g, _) ← cspProcessPixel s.1 pixel
          let pixel_available ← pixelAvailable g pixel
          if !pixel_available then return ((g, pixel_available), true)
          return ((g, pixel_available), false))
        (s, b0))
      fun r => (r.2 = false ∧ Bad c (ps ++ (List.range c.w).map fun x => (x, y)) r.1) ∨
        (r.2 = true ∧ Good c (ps ++ (List.range c.w).map fun x => (x, y)) r.1) := by
  have hw : c.disparityGraph.right.width.toNat = c.w := rfl
  have hwp : 0 < c.w := hc.graph.width_pos
  refine cfor_ok 0 c.w
    (fun j r => Good c (ps ++ (List.range j).map fun x => (x, y)) r.1 ∧ (0 < j → r.2 = true))
    rfl (by omega) ?_ ?_ ?_ ?_
  · intro k _ hk
    exact cond_lt _ _ (by simpa [hw] using hk)
  · exact ⟨by simpa using hs, by omega⟩
  · rintro j ⟨s', b⟩ _ hj ⟨hg, -⟩
    refine (process_step hp hg (x := j) (y := y) hj hy).mono ?_
    rintro ⟨⟨g, b'⟩, br⟩ (⟨rfl, rfl, h⟩ | ⟨rfl, rfl, h⟩)
    · simp only [if_true]
      refine .inl ⟨trivial, ?_⟩
      have e : (List.range c.w).map (fun x => (x, y))
          = (List.range j).map (fun x => (x, y)) ++ [(j, y)] ++
            ((List.range (c.w - (j + 1))).map fun i => (j + 1 + i, y)) := by
        conv => lhs; rw [show c.w = (j + 1) + (c.w - (j + 1)) by omega, List.range_add]
        simp [List.range_succ]
      rw [e, ← List.append_assoc, ← List.append_assoc]
      exact h.append
    · simp only [Bool.false_eq_true, if_false]
      refine ⟨?_, fun _ => trivial⟩
      rw [List.range_succ, List.map_append, ← List.append_assoc]
      exact h
  · rintro ⟨s', b⟩ ⟨hg, hb⟩
    rw [show max 0 c.w = c.w by omega] at hg hb
    exact .inr ⟨hb hwp, hg⟩

/-- What one call of `csp_solution_iteration` does. -/
theorem cspSolutionIteration_mk (hc : c.Valid) (hp : c.Proper) {jobs job : Nat}
    (hj : 0 < jobs) (hfit : c.h + jobs ≤ 18446744073709551616) (hjob : job < 18446744073709551616) :
    Ok (cspSolutionIteration c (UInt64.ofNat jobs) (UInt64.ofNat job)) fun r =>
      c.Same r.1 ∧ r.1.Valid ∧
      let ps := jobPixels c.w jobs job (jobRows c.h jobs job)
      ((r.2 = false ∧ Good c ps r.1) ∨
       (∃ s, Bad c ps s ∧ (∀ x y d, ¬ r.1.Av x y d) ∧ (r.2 = true ↔ ∃ x y d, s.Av x y d))) := by
  have hw : c.disparityGraph.right.width.toNat = c.w := rfl
  have hh : c.disparityGraph.right.height.toNat = c.h := rfl
  have hhp : 0 < c.h := hc.graph.height_pos
  have hhb := hc.bounds.bh
  have hgood0 : Good c [] c := ⟨Same.refl c, hc, rfl, by simp⟩
  unfold cspSolutionIteration
  have hcnd : (UInt64.ofNat job ≥ c.disparityGraph.right.height) ↔ c.h ≤ job := by
    rw [ge_iff_le, UInt64.le_iff_toNat_le, toNat_ofNat_lt hjob, hh]
  by_cases hjb : c.h ≤ job
  · rw [if_pos (hcnd.2 hjb)]
    refine Ok.pure ⟨Same.refl c, hc, .inl ⟨rfl, ?_⟩⟩
    have : jobRows c.h jobs job = 0 := by
      have := jobRows_lt (h := c.h) (jobs := jobs) (job := job) (i := 0) hj
      omega
    rw [this]
    exact hgood0
  · rw [if_neg (fun h => hjb (hcnd.1 h))]
    simp only
    have hn0 : 0 < jobRows c.h jobs job := (jobRows_lt hj).2 (by omega)
    refine Ok.bind (P := fun r => (r.2 = false ∧ Bad c (jobPixels c.w jobs job (jobRows c.h jobs job)) r.1) ∨
        (r.2 = true ∧ Good c (jobPixels c.w jobs job (jobRows c.h jobs job)) r.1)) ?_ ?_
    · refine cfor_seq (fun i => UInt64.ofNat (job + i * jobs)) 0 (jobRows c.h jobs job)
        (fun i r => Good c (jobPixels c.w jobs job i) r.1 ∧ (0 < i → r.2 = true))
        (by simp) (by omega) ?_ ?_ ?_ ?_ ?_ ?_
      · have : jobRows c.h jobs job ≤ c.h := by
          by_cases hlt : c.h < jobRows c.h jobs job
          · have := (jobRows_lt hj).1 hlt
            have := Nat.le_mul_of_pos_right c.h hj
            omega
          · omega
        omega
      · intro k _ _
        rw [← UInt64.ofNat_add, Nat.add_mul, Nat.one_mul, Nat.add_assoc]
      · intro k _ hk
        have hk' := jobRows_lt (h := c.h) (jobs := jobs) (job := job) (i := k) hj
        rw [Bool.eq_iff_iff]
        simp only [decide_eq_true_eq]
        have hlt : job + k * jobs < 18446744073709551616 := by
          by_cases h0 : k = 0
          · subst h0; omega
          · obtain ⟨m, rfl⟩ : ∃ m, k = m + 1 := ⟨k - 1, by omega⟩
            have := (jobRows_lt (h := c.h) (jobs := jobs) (job := job) (i := m) hj).1 (by omega)
            rw [Nat.add_mul]
            omega
        rw [UInt64.lt_iff_toNat_lt, toNat_ofNat_lt hlt, hh, hk']
      · exact ⟨hgood0, by omega⟩
      · rintro k ⟨s, b⟩ _ hk ⟨hg, -⟩
        have hy : job + k * jobs < c.h := (jobRows_lt hj).1 hk
        refine Ok.bind (row_step hc hp hg hy) ?_
        rintro ⟨g, b'⟩ (⟨hb, h⟩ | ⟨hb, h⟩)
        · simp only at hb h
          subst hb
          simp only [Bool.not_false, if_true]
          refine Ok.pure ?_
          simp only [if_true]
          refine .inl ⟨trivial, ?_⟩
          rw [← jobPixels_succ] at h
          obtain ⟨m, hm⟩ : ∃ m, jobRows c.h jobs job = k + 1 + m := ⟨jobRows c.h jobs job - (k + 1), by omega⟩
          rw [hm]
          have : jobPixels c.w jobs job (k + 1 + m) = jobPixels c.w jobs job (k + 1) ++
              ((List.range m).map (k + 1 + ·)).flatMap
                fun i => (List.range c.w).map fun x => (x, job + i * jobs) := by
            simp only [jobPixels]
            rw [List.range_add, List.flatMap_append]
          rw [this]
          exact h.append
        · simp only at hb h
          subst hb
          simp only [Bool.not_true, Bool.false_eq_true, if_false]
          refine Ok.pure ?_
          simp only [Bool.false_eq_true, if_false]
          refine ⟨?_, fun _ => trivial⟩
          rw [jobPixels_succ]
          exact h
      · rintro ⟨s, b⟩ ⟨hg, hb⟩
        exact .inr ⟨hb hn0, hg⟩
    · rintro ⟨s, b⟩ (⟨hb, h⟩ | ⟨hb, h⟩)
      · simp only at hb h
        subst hb
        simp only [Bool.not_false, if_true]
        refine Ok.bind (checkNodesLeft_ok h.2.1) ?_
        intro b hb
        cases b
        · simp only [Bool.not_false, if_true]
          have hne : ∀ x y d, ¬ s.Av x y d := by
            intro x y d hd
            exact absurd (hb.2 ⟨x, y, d, hd⟩) (by simp)
          refine Ok.pure ⟨h.1, h.2.1, .inr ⟨s, h, hne, ?_⟩⟩
          simp [hne]
        · simp only [Bool.not_true, Bool.false_eq_true, if_false]
          refine Ok.bind (makeAllNodesUnavailable_ok h.2.1) ?_
          rintro g ⟨g1, g2, g3⟩
          refine Ok.pure ⟨h.1.trans g1, g2, .inr ⟨s, h, g3, ?_⟩⟩
          simp only [true_iff]
          exact hb.1 rfl
      · simp only at hb h
        subst hb
        simp only [Bool.not_true, Bool.false_eq_true, if_false]
        exact Ok.pure ⟨h.1, h.2.1, .inl ⟨rfl, h⟩⟩

end SP
