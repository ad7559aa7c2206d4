import Verif.Lemmas.GpuLabel
import Verif.Lemmas.ParOne
/-!
# CUDA devices with limits; failures of OpenCL
-/
set_option linter.unusedSectionVars false

namespace SP
open FloatOps ConstraintGraph Gpu
variable {F D : Type} [FloatOps F] [FloatOps D] {limits : Limits} {launch : Launcher D} {conv : F → D}

theorem findLabelingClFailing_cases {failure : ConstraintGraph F → Option String} (c : ConstraintGraph F) :
    (∃ what, findLabelingClFailing failure conv launch c = .error (.exc (.other what))) ∨
    findLabelingClFailing failure conv launch c = findLabelingCl conv launch c := by
  unfold findLabelingClFailing
  cases failure c with
  | none => exact .inr rfl
  | some what => exact .inl ⟨what, rfl⟩

/-- The first computation does the same as the second one, or it exits, or it ends in a failed state. -/
def Under {σ τ : Type} (φ : τ → σ) (P : σ → Prop) (m : M σ) (n : M τ) : Prop :=
  m = .error .exit ∨ (∃ a, m = .ok a ∧ P a) ∨ m = n.map φ

section
variable {σ τ : Type} {φ : τ → σ} {P : σ → Prop} {n : UInt64} {f : UInt64 → σ → M (σ × Bool)} {g : UInt64 → τ → M (τ × Bool)}

theorem cfor_failed (hf : ∀ i s, P s → f i s = .error .exit ∨ ∃ a, f i s = .ok (a, false) ∧ P a) (fuel : Nat) (i : UInt64)
    (hn : n.toNat ≤ fuel + i.toNat) (s : σ) (hs : P s) :
    cfor fuel i (fun x => decide (x < n)) inc f s = .error .exit ∨
    ∃ a, cfor fuel i (fun x => decide (x < n)) inc f s = .ok a ∧ P a := by
  induction fuel generalizing i s with
  | zero =>
    have : ¬ i < n := by rw [UInt64.lt_iff_toNat_lt]; omega
    simp only [cfor, this, decide_false]
    exact .inr ⟨s, rfl, hs⟩
  | succ fuel ih =>
    unfold cfor
    by_cases hi : i < n
    · simp only [hi, decide_true, if_true]
      have hlt := UInt64.lt_iff_toNat_lt.1 hi
      have hb := n.toNat_lt
      have hinc : (inc i).toNat = i.toNat + 1 := by
        unfold inc
        rw [UInt64.toNat_add]
        show (i.toNat + 1) % _ = _
        omega
      rcases hf i s hs with h | ⟨a, h, ha⟩
      · rw [h]; exact .inl rfl
      · rw [h]; exact ih _ (by omega) a ha
    · simp only [hi, decide_false]
      exact .inr ⟨s, rfl, hs⟩

theorem cfor_under (hf : ∀ i s, P s → f i s = .error .exit ∨ ∃ a, f i s = .ok (a, false) ∧ P a)
    (hb : ∀ i t, f i (φ t) = .error .exit ∨ (∃ a, f i (φ t) = .ok (a, false) ∧ P a) ∨
      f i (φ t) = (g i t).map fun r => (φ r.1, r.2)) (fuel : Nat) (i : UInt64) (hn : n.toNat ≤ fuel + i.toNat) (t : τ) :
    Under φ P (cfor fuel i (fun x => decide (x < n)) inc f (φ t)) (cfor fuel i (fun x => decide (x < n)) inc g t) := by
  induction fuel generalizing i t with
  | zero =>
    have : ¬ i < n := by rw [UInt64.lt_iff_toNat_lt]; omega
    simp only [cfor, this, decide_false]
    exact .inr (.inr rfl)
  | succ fuel ih =>
    unfold cfor
    by_cases hi : i < n
    · simp only [hi, decide_true, if_true]
      have hlt := UInt64.lt_iff_toNat_lt.1 hi
      have hb' := n.toNat_lt
      have hinc : (inc i).toNat = i.toNat + 1 := by
        unfold inc
        rw [UInt64.toNat_add]
        show (i.toNat + 1) % _ = _
        omega
      rcases hb i t with h | ⟨a, h, ha⟩ | h
      · rw [h]; exact .inl rfl
      · rw [h]
        rcases cfor_failed (n := n) hf fuel (inc i) (by omega) a ha with h | h
        · exact .inl h
        · exact .inr (.inl h)
      · rw [h]
        rcases g i t with e | ⟨t', b⟩
        · exact .inr (.inr rfl)
        · cases b
          · exact ih _ (by omega) t'
          · exact .inr (.inr rfl)
    · simp only [hi, decide_false]
      exact .inr (.inr rfl)

end

/-- The body of the loops of `csp_solution_cuda` on a device with limits; the loop over rows. -/
def limitedBody (limits : Limits) (launch : Launcher D) (c : ConstraintGraph D) (x y : UInt64) (s : Device D × Nat × Bool) :
    M ((Device D × Nat × Bool) × Bool) := do
  cudaCheckError s.2.2
  let (g, _) ← chooseBestNode s.1.graph { x := x, y := y }
  if limits.Fits c then
    let d ← launch s.2.1 { s.1 with graph := g }
    return ((d, s.2.1 + 1, s.2.2), false)
  else
    return (({ s.1 with graph := g }, s.2.1 + 1, true), false)

def limitedColumn (limits : Limits) (launch : Launcher D) (c : ConstraintGraph D) (x : UInt64) (s : Device D × Nat × Bool) :
    M ((Device D × Nat × Bool) × Bool) := do
  let s ← cfor c.disparityGraph.right.height.toNat 0 (fun y => decide (y < c.disparityGraph.right.height)) inc
    (limitedBody limits launch c x) s
  return (s, false)

theorem cspSolutionCudaLimited_eq (c : ConstraintGraph D) : cspSolutionCudaLimited limits launch c = (do
    let s ← cfor c.disparityGraph.right.width.toNat 0 (fun x => decide (x < c.disparityGraph.right.width)) inc
      (limitedColumn limits launch c) ({ graph := c, changed := fun _ => false }, 0, false)
    cudaCheckError s.2.2
    return s.1.graph) := rfl

/-- The same without limits. -/
def plainBody (launch : Launcher D) (x y : UInt64) (s : Device D × Nat) : M ((Device D × Nat) × Bool) := do
  let (g, _) ← chooseBestNode s.1.graph { x := x, y := y }
  let d ← launch s.2 { s.1 with graph := g }
  return ((d, s.2 + 1), false)

def plainColumn (launch : Launcher D) (c : ConstraintGraph D) (x : UInt64) (s : Device D × Nat) : M ((Device D × Nat) × Bool) := do
  let s ← cfor c.disparityGraph.right.height.toNat 0 (fun y => decide (y < c.disparityGraph.right.height)) inc (plainBody launch x) s
  return (s, false)

theorem cspSolutionCuda_eq (c : ConstraintGraph D) : cspSolutionCuda launch c = (do
    let s ← cfor c.disparityGraph.right.width.toNat 0 (fun x => decide (x < c.disparityGraph.right.width)) inc
      (plainColumn launch c) ({ graph := c, changed := fun _ => false }, 0)
    return s.1.graph) := rfl

/-- A state in which nothing has failed. -/
def sound (t : Device D × Nat) : Device D × Nat × Bool := (t.1, t.2, false)

theorem limitedBody_fits {c : ConstraintGraph D} (h : limits.Fits c) (x y : UInt64) (t : Device D × Nat) :
    (plainBody launch x y t).map (fun r => (sound r.1, r.2)) = limitedBody limits launch c x y (sound t) := by
  unfold plainBody limitedBody
  simp only [sound, cudaCheckError, Bool.false_eq_true, if_false, bind_ok, h, if_true]
  cases chooseBestNode t.1.graph { x := x, y := y } with
  | error e => rfl
  | ok r =>
    rw [bind_ok, bind_ok]
    cases launch t.2 { t.1 with graph := r.1 } <;> rfl

theorem limitedColumn_fits {c : ConstraintGraph D} (h : limits.Fits c) (x : UInt64) (t : Device D × Nat) :
    (plainColumn launch c x t).map (fun r => (sound r.1, r.2)) = limitedColumn limits launch c x (sound t) := by
  unfold plainColumn limitedColumn
  rw [← cfor_map sound (limitedBody_fits h x)]
  generalize cfor _ _ _ _ (plainBody launch x) t = m
  cases m <;> rfl

/-- Each launch fits: limits do not matter. -/
theorem cspSolutionCudaLimited_fits {c : ConstraintGraph D} (h : limits.Fits c) :
    cspSolutionCudaLimited limits launch c = cspSolutionCuda launch c := by
  rw [cspSolutionCudaLimited_eq, cspSolutionCuda_eq]
  show (cfor _ _ _ _ _ (sound ({ graph := c, changed := fun _ => false }, 0)) >>= _) = _
  rw [← cfor_map sound (limitedColumn_fits h)]
  generalize cfor _ _ _ _ (plainColumn launch c) _ = m
  cases m <;> rfl

theorem limitedBody_failed (c : ConstraintGraph D) (x y : UInt64) {s : Device D × Nat × Bool} (hs : s.2.2 = true) :
    limitedBody limits launch c x y s = .error .exit := by
  unfold limitedBody
  rw [hs]
  rfl

theorem limitedColumn_failed (c : ConstraintGraph D) (x : UInt64) {s : Device D × Nat × Bool} (hs : s.2.2 = true) :
    limitedColumn limits launch c x s = .error .exit ∨ ∃ a, limitedColumn limits launch c x s = .ok (a, false) ∧ a.2.2 = true := by
  unfold limitedColumn
  rcases cfor_failed (P := fun s : Device D × Nat × Bool => s.2.2 = true) (n := c.disparityGraph.right.height)
    (f := limitedBody limits launch c x) (fun i s hs => .inl (limitedBody_failed c x i hs))
    c.disparityGraph.right.height.toNat 0 (by simp) s hs with h | ⟨a, h, ha⟩
  · rw [h]; exact .inl rfl
  · rw [h]; exact .inr ⟨a, rfl, ha⟩

theorem limitedBody_exceeds {c : ConstraintGraph D} (h : ¬ limits.Fits c) (x y : UInt64) (t : Device D × Nat) :
    (∃ a, limitedBody limits launch c x y (sound t) = .ok (a, false) ∧ a.2.2 = true) ∨
    limitedBody limits launch c x y (sound t) = (plainBody launch x y t).map fun r => (sound r.1, r.2) := by
  unfold plainBody limitedBody
  simp only [sound, cudaCheckError, Bool.false_eq_true, if_false, bind_ok, h]
  cases chooseBestNode t.1.graph { x := x, y := y } with
  | error e => exact .inr rfl
  | ok r => exact .inl ⟨_, rfl, rfl⟩

theorem limitedColumn_exceeds {c : ConstraintGraph D} (h : ¬ limits.Fits c) (x : UInt64) (t : Device D × Nat) :
    limitedColumn limits launch c x (sound t) = .error .exit ∨
    (∃ a, limitedColumn limits launch c x (sound t) = .ok (a, false) ∧ a.2.2 = true) ∨
    limitedColumn limits launch c x (sound t) = (plainColumn launch c x t).map fun r => (sound r.1, r.2) := by
  unfold plainColumn limitedColumn
  rcases cfor_under (P := fun s : Device D × Nat × Bool => s.2.2 = true) (φ := sound) (n := c.disparityGraph.right.height)
    (f := limitedBody limits launch c x) (g := plainBody launch x) (fun i s hs => .inl (limitedBody_failed c x i hs))
    (fun i t => .inr (limitedBody_exceeds h x i t)) c.disparityGraph.right.height.toNat 0 (by simp) t with h | ⟨a, h, ha⟩ | h
  · rw [h]; exact .inl rfl
  · rw [h]; exact .inr (.inl ⟨a, rfl, ha⟩)
  · rw [h]
    refine .inr (.inr ?_)
    generalize cfor _ _ _ _ (plainBody launch x) t = m
    cases m <;> rfl

/-- Limits do not matter, or the process is ended. -/
theorem cspSolutionCudaLimited_cases (c : ConstraintGraph D) :
    cspSolutionCudaLimited limits launch c = .error .exit ∨
    cspSolutionCudaLimited limits launch c = cspSolutionCuda launch c := by
  by_cases h : limits.Fits c
  · exact .inr (cspSolutionCudaLimited_fits h)
  rw [cspSolutionCudaLimited_eq, cspSolutionCuda_eq]
  show (cfor _ _ _ _ _ (sound ({ graph := c, changed := fun _ => false }, 0)) >>= _) = _ ∨
    (cfor _ _ _ _ _ (sound ({ graph := c, changed := fun _ => false }, 0)) >>= _) = _
  rcases cfor_under (P := fun s : Device D × Nat × Bool => s.2.2 = true) (φ := sound) (n := c.disparityGraph.right.width)
    (f := limitedColumn limits launch c) (g := plainColumn launch c) (fun i s hs => limitedColumn_failed c i hs)
    (fun i t => limitedColumn_exceeds h i t) c.disparityGraph.right.width.toNat 0 (by simp)
    ({ graph := c, changed := fun _ => false }, 0) with h | ⟨a, h, ha⟩ | h
  · rw [h]; exact .inl rfl
  · rw [h, bind_ok]
    simp only [ha, cudaCheckError, if_true]
    exact .inl rfl
  · rw [h]
    refine .inr ?_
    generalize cfor _ _ _ _ (plainColumn launch c) _ = m
    cases m <;> rfl

theorem findLabelingCudaLimited_cases (c : ConstraintGraph F) :
    findLabelingCudaLimited limits conv launch c = .error .exit ∨
    findLabelingCudaLimited limits conv launch c = findLabelingCuda conv launch c := by
  unfold findLabelingCudaLimited findLabelingCuda
  rcases cspSolutionCudaLimited_cases (limits := limits) (launch := launch) (c.onDevice conv) with h | h
  · rw [h]; exact .inl rfl
  · rw [h]; exact .inr rfl

theorem onDevice_fits {c : ConstraintGraph F} : limits.Fits (c.onDevice conv) ↔ limits.Fits c := Iff.rfl

theorem findLabelingCudaLimited_fits {c : ConstraintGraph F} (h : limits.Fits c) :
    findLabelingCudaLimited limits conv launch c = findLabelingCuda conv launch c := by
  unfold findLabelingCudaLimited findLabelingCuda
  rw [cspSolutionCudaLimited_fits (onDevice_fits.2 h)]

theorem limitedBody_first {c : ConstraintGraph D} (hc : c.Valid) (hp : c.Proper) (h : ¬ limits.Fits c)
    {s : Device D × Nat × Bool} (hs : s.1.graph = c) {x y : Nat} (hx : x < c.w) (hy : y < c.h) :
    Res (· = .exit) (limitedBody limits launch c (UInt64.ofNat x) (UInt64.ofNat y) s) fun r => r.2 = false ∧ r.1.2.2 = true := by
  by_cases hf : s.2.2 = true
  · rw [limitedBody_failed c _ _ hf]
    exact rfl
  · rw [Bool.not_eq_true] at hf
    unfold limitedBody
    rw [hf, hs]
    simp only [cudaCheckError, Bool.false_eq_true, if_false, bind_ok, h]
    exact Res.bind (chooseBestNode_mk hc hp hx hy).res fun r _ => ⟨rfl, rfl⟩

theorem limitedColumn_first {c : ConstraintGraph D} (hc : c.Valid) (hp : c.Proper) (h : ¬ limits.Fits c)
    {s : Device D × Nat × Bool} (hs : s.1.graph = c) {x : Nat} (hx : x < c.w) :
    Res (· = .exit) (limitedColumn limits launch c (UInt64.ofNat x) s) fun r => r.2 = false ∧ r.1.2.2 = true := by
  have hh : 0 < c.h := hc.graph.height_pos
  have hb := hc.bounds.bh
  unfold limitedColumn
  refine Res.bind (cfor_res (Q := fun s => s.2.2 = true) c.h (fun k s => (k = 0 ∧ s.1.graph = c) ∨ s.2.2 = true)
    (Nat.le_refl _) ?_ (.inl ⟨rfl, hs⟩) ?_ ?_) fun s hs => ⟨rfl, hs⟩
  · intro k hk
    rw [decide_eq_decide, UInt64.lt_iff_toNat_lt, UInt64.toNat_ofNat_of_lt' (show k < 18446744073709551616 by omega)]
    exact Iff.rfl
  · rintro k s hk (⟨rfl, hs⟩ | hs)
    · refine (limitedBody_first hc hp h hs hx hk).mono fun r hr => ?_
      rw [hr.1]
      exact .inr hr.2
    · rw [limitedBody_failed c _ _ hs]
      exact rfl
  · rintro s (⟨h0, -⟩ | h)
    · omega
    · exact h

/-- The image is too large for the device: the process is ended. -/
theorem cspSolutionCudaLimited_exit {c : ConstraintGraph D} (hc : c.Valid) (hp : c.Proper) (h : ¬ limits.Fits c) :
    cspSolutionCudaLimited limits launch c = .error .exit := by
  rw [cspSolutionCudaLimited_eq]
  have hw : 0 < c.w := hc.graph.width_pos
  have hb := hc.bounds.bw
  have key : Res (· = .exit) (cfor c.disparityGraph.right.width.toNat 0 (fun x => decide (x < c.disparityGraph.right.width)) inc
      (limitedColumn limits launch c) ({ graph := c, changed := fun _ => false }, 0, false)) fun s => s.2.2 = true := by
    refine cfor_res (Q := fun s : Device D × Nat × Bool => s.2.2 = true) c.w (fun k (s : Device D × Nat × Bool) => (k = 0 ∧ s.1.graph = c) ∨ s.2.2 = true)
      (Nat.le_refl _) ?_ (.inl ⟨rfl, rfl⟩) ?_ ?_
    · intro k hk
      rw [decide_eq_decide, UInt64.lt_iff_toNat_lt, UInt64.toNat_ofNat_of_lt' (show k < 18446744073709551616 by omega)]
      exact Iff.rfl
    · rintro k s hk (⟨rfl, hs⟩ | hs)
      · refine (limitedColumn_first hc hp h hs hk).mono fun r hr => ?_
        rw [hr.1]
        exact .inr hr.2
      · rcases limitedColumn_failed (limits := limits) (launch := launch) c (UInt64.ofNat k) hs with h | ⟨a, h, ha⟩
        · rw [h]; exact rfl
        · rw [h]; exact .inr ha
    · rintro s (⟨h0, -⟩ | h)
      · omega
      · exact h
  revert key
  generalize cfor _ _ _ _ _ _ = m
  intro key
  cases m with
  | error e => cases key; rfl
  | ok s =>
    have key : s.2.2 = true := key
    rw [bind_ok, key]
    rfl

theorem findLabelingCudaLimited_exit {c : ConstraintGraph F} (hc : c.Valid) (hp : c.Proper) (h : ¬ limits.Fits c) :
    findLabelingCudaLimited limits conv launch c = .error .exit := by
  unfold findLabelingCudaLimited
  rw [cspSolutionCudaLimited_exit (onDevice_valid hc conv) (onDevice_proper hp conv) (onDevice_fits.not.2 h)]
  rfl

end SP
