import Verif.Model.CudaFailures
import Verif.Lemmas.CudaLimits
/-!
# What failures of CUDA lead to
-/
set_option linter.unusedSectionVars false

namespace SP
open FloatOps ConstraintGraph Gpu
variable {F D : Type} [FloatOps F] [FloatOps D] {launch : Launcher D} {conv : F → D} {trouble : Trouble}
  {best : ConstraintGraph D → UInt64 → UInt64 → M (ConstraintGraph D)} {Inv : Device D → Prop}

/-! ## Loops -/

section
variable {σ τ : Type} {φ : τ → σ} {P : σ → Prop} {I : τ → Prop} {E : Err → Prop} {n : UInt64} {f : UInt64 → σ → M (σ × Bool)} {g : UInt64 → τ → M (τ × Bool)}

/-- The computation ends with an error of this kind, or in a state of this kind. -/
def EndsWith (E : Err → Prop) (P : σ → Prop) (m : M σ) : Prop := (∃ e, E e ∧ m = .error e) ∨ ∃ a, m = .ok a ∧ P a

theorem cfor_endsWith (hf : ∀ i s, P s → EndsWith E (fun r => r.2 = false ∧ P r.1) (f i s)) (fuel : Nat) (i : UInt64)
    (hn : n.toNat ≤ fuel + i.toNat) (s : σ) (hs : P s) : EndsWith E P (cfor fuel i (fun x => decide (x < n)) inc f s) := by
  induction fuel generalizing i s with
  | zero =>
    have : ¬ i < n := by rw [UInt64.lt_iff_toNat_lt]; omega
    simp only [cfor, this, decide_false]
    exact .inr ⟨s, rfl, hs⟩
  | succ fuel ih =>
    unfold cfor
    by_cases hi : i < n
    · simp only [hi, decide_true, if_true]
      have hlt := UInt64.lt_iff_toNat_lt.1 hi
      have hb := n.toNat_lt
      have hinc : (inc i).toNat = i.toNat + 1 := by
        unfold inc
        rw [UInt64.toNat_add]
        show (i.toNat + 1) % _ = _
        omega
      rcases hf i s hs with ⟨e, he, h⟩ | ⟨⟨a, b⟩, h, rfl, ha⟩
      · rw [h]; exact .inl ⟨e, he, rfl⟩
      · rw [h]; exact ih _ (by omega) a ha
    · simp only [hi, decide_false]
      exact .inr ⟨s, rfl, hs⟩

theorem cfor_endsWith_or (hf : ∀ i s, P s → EndsWith E (fun r => r.2 = false ∧ P r.1) (f i s))
    (hb : ∀ i t, i < n → I t → EndsWith E (fun r => r.2 = false ∧ P r.1) (f i (φ t)) ∨
      (f i (φ t) = (g i t).map fun r => (φ r.1, r.2)) ∧ ∀ r, g i t = .ok r → I r.1)
    (fuel : Nat) (i : UInt64) (hn : n.toNat ≤ fuel + i.toNat) (t : τ) (ht : I t) :
    EndsWith E P (cfor fuel i (fun x => decide (x < n)) inc f (φ t)) ∨
    (cfor fuel i (fun x => decide (x < n)) inc f (φ t) = (cfor fuel i (fun x => decide (x < n)) inc g t).map φ) ∧
      ∀ r, cfor fuel i (fun x => decide (x < n)) inc g t = .ok r → I r := by
  induction fuel generalizing i t with
  | zero =>
    have : ¬ i < n := by rw [UInt64.lt_iff_toNat_lt]; omega
    simp only [cfor, this, decide_false]
    exact .inr ⟨rfl, fun r hr => by cases hr; exact ht⟩
  | succ fuel ih =>
    unfold cfor
    by_cases hi : i < n
    · simp only [hi, decide_true, if_true]
      have hlt := UInt64.lt_iff_toNat_lt.1 hi
      have hb' := n.toNat_lt
      have hinc : (inc i).toNat = i.toNat + 1 := by
        unfold inc
        rw [UInt64.toNat_add]
        show (i.toNat + 1) % _ = _
        omega
      rcases hb i t hi ht with (⟨e, he, h⟩ | ⟨⟨a, b⟩, h, rfl, ha⟩) | ⟨h, hI⟩
      · rw [h]; exact .inl (.inl ⟨e, he, rfl⟩)
      · rw [h]
        exact .inl (cfor_endsWith (n := n) hf fuel (inc i) (by omega) a ha)
      · rw [h]
        cases hg : g i t with
        | error e => exact .inr ⟨rfl, nofun⟩
        | ok r =>
          obtain ⟨t', b⟩ := r
          have ht' := hI _ hg
          cases b
          · exact ih _ (by omega) t' ht'
          · exact .inr ⟨rfl, fun r hr => by cases hr; exact ht'⟩
    · simp only [hi, decide_false]
      exact .inr ⟨rfl, fun r hr => by cases hr; exact ht⟩

end

/-! ## The runtime -/

namespace Gpu

/-- Nothing has failed. -/
def Runtime.Clean (r : Runtime) : Prop := r = {}

theorem Runtime.call_fine {r : Runtime} (h : r.Clean) : r.call .fine = (true, r) := by
  rw [show r = {} from h]; rfl

/-- A call that fails or loses the device is remembered. -/
theorem Runtime.call_bad {r : Runtime} (h : r.last = true ∨ r.lost = true) (v : Verdict) :
    (r.call v).2.last = true ∨ (r.call v).2.lost = true := by
  unfold Runtime.call
  split
  · exact .inl rfl
  · cases v with
    | fine => exact h
    | refused => exact .inl rfl
    | lost => exact .inl rfl
    | later => exact .inr rfl

theorem Runtime.call_lost {r : Runtime} (h : r.lost = true) (v : Verdict) : r.call v = (false, { r with last := true }) := by
  unfold Runtime.call
  rw [h]; rfl

/-- A call that succeeds and does not lose the device changes nothing. -/
theorem Runtime.call_clean {r : Runtime} (h : r.Clean) (v : Verdict) : (r.call v = (true, {}) ∧ v = .fine) ∨
    (v ≠ .fine ∧ ((r.call v).2.last = true ∨ (r.call v).2.lost = true)) := by
  rw [show r = {} from h]
  cases v with
  | fine => exact .inl ⟨rfl, rfl⟩
  | refused => exact .inr ⟨nofun, .inl rfl⟩
  | lost => exact .inr ⟨nofun, .inl rfl⟩
  | later => exact .inr ⟨nofun, .inr rfl⟩

theorem Runtime.bad_or_clean (r : Runtime) : (r.last = true ∨ r.lost = true) ∨ r.Clean := by
  obtain ⟨a, b⟩ := r
  cases a
  · cases b
    · exact .inr rfl
    · exact .inl (.inr rfl)
  · exact .inl (.inl rfl)

theorem errchk_release (r : Runtime) (vs : List Verdict) : ∃ r', errchk false r vs = some r' ∧ ((r.last = true ∨ r.lost = true) → r'.last = true ∨ r'.lost = true) ∧
    (r.lost = true → r'.lost = true) := by
  induction vs generalizing r with
  | nil => exact ⟨r, rfl, id, id⟩
  | cons v vs ih =>
    obtain ⟨r', h1, h2, h3⟩ := ih (r.call v).2
    refine ⟨r', h1, fun h => h2 (r.call_bad h v), fun h => h3 ?_⟩
    rw [r.call_lost h]
    exact h

/-- `assert` does nothing else than ending the process after a failure. -/
theorem errchk_asserts (r : Runtime) (vs : List Verdict) : errchk true r vs = errchk false r vs ∨
    (errchk true r vs = none ∧ (r.lost = true ∨ ∃ v ∈ vs, v ≠ .fine)) := by
  induction vs generalizing r with
  | nil => exact .inl rfl
  | cons v vs ih =>
    have hkind : (r.call v).1 = false ∨ (r.call v).2.lost = true → r.lost = true ∨ v ≠ .fine := by
      unfold Runtime.call
      cases hl : r.lost
      · cases v <;> simp [hl]
      · exact fun _ => .inl rfl
    cases hc : (r.call v).1
    · refine .inr ⟨by simp [errchk, hc], (hkind (.inl hc)).imp id fun h => ⟨v, List.mem_cons_self, h⟩⟩
    · rcases ih (r.call v).2 with h | ⟨h, h'⟩
      · exact .inl (by simp [errchk, hc, h])
      · refine .inr ⟨by simp [errchk, hc, h], ?_⟩
        rcases h' with h' | ⟨u, hu, h'⟩
        · exact (hkind (.inr h')).imp id fun h => ⟨v, List.mem_cons_self, h⟩
        · exact .inr ⟨u, List.mem_cons_of_mem _ hu, h'⟩

/-- Calls that succeed. -/
theorem errchk_fine (asserts : Bool) {vs : List Verdict} (h : ∀ v ∈ vs, v = .fine) : errchk asserts {} vs = some {} := by
  induction vs with
  | nil => rfl
  | cons v vs ih =>
    obtain rfl := h v List.mem_cons_self
    have := ih fun u hu => h u (List.mem_cons_of_mem _ hu)
    cases asserts <;> exact this

/-- Calls that do not. -/
theorem errchk_bad {vs : List Verdict} (h : ∃ v ∈ vs, v ≠ .fine) : ∃ r, errchk false {} vs = some r ∧ (r.last = true ∨ r.lost = true) := by
  induction vs with
  | nil => obtain ⟨v, hv, -⟩ := h; cases hv
  | cons v vs ih =>
    rcases Runtime.call_clean (r := {}) rfl v with ⟨h1, rfl⟩ | ⟨-, h1⟩
    · obtain ⟨u, hu, h2⟩ := h
      rcases List.mem_cons.1 hu with rfl | hu
      · exact absurd rfl h2
      · exact ih ⟨u, hu, h2⟩
    · obtain ⟨r', k1, k2, -⟩ := errchk_release (Runtime.call {} v).2 vs
      exact ⟨r', k1, k2 h1⟩

/-! ## `csp_solution_cuda` -/

/-- The body of its loops; the loop over rows. -/
def failingBody (trouble : Trouble) (best : ConstraintGraph D → UInt64 → UInt64 → M (ConstraintGraph D)) (launch : Launcher D) (x y : UInt64)
    (s : Device D × Nat × Runtime) : M ((Device D × Nat × Runtime) × Bool) := do
  cudaCheckError (s.2.2.last || (s.2.2.lost && trouble.notice s.2.1))
  let g ← if s.2.2.executed (trouble.choose s.2.1) then best s.1.graph x y else pure s.1.graph
  let r := (s.2.2.call (trouble.choose s.2.1)).2
  let d ← if r.executed (trouble.iterate s.2.1) then launch s.2.1 { s.1 with graph := g } else pure { s.1 with graph := g }
  return ((d, s.2.1 + 1, (r.call (trouble.iterate s.2.1)).2), false)

def failingColumn (trouble : Trouble) (best : ConstraintGraph D → UInt64 → UInt64 → M (ConstraintGraph D)) (launch : Launcher D) (c : ConstraintGraph D)
    (x : UInt64) (s : Device D × Nat × Runtime) : M ((Device D × Nat × Runtime) × Bool) := do
  let s ← cfor c.disparityGraph.right.height.toNat 0 (fun y => decide (y < c.disparityGraph.right.height)) inc (failingBody trouble best launch x) s
  return (s, false)

theorem cspSolutionFailing_eq (c : ConstraintGraph D) (r : Runtime) : cspSolutionFailing trouble best launch c r = (do
    let s ← cfor c.disparityGraph.right.width.toNat 0 (fun x => decide (x < c.disparityGraph.right.width)) inc
      (failingColumn trouble best launch c) ({ graph := c, changed := fun _ => false }, 0, r)
    cudaCheckError (s.2.2.last || (s.2.2.lost && trouble.noticeLast))
    return (s.1.graph, s.2.2)) := rfl

/-- The same without failures. -/
def soundBody (best : ConstraintGraph D → UInt64 → UInt64 → M (ConstraintGraph D)) (launch : Launcher D) (x y : UInt64) (s : Device D × Nat) :
    M ((Device D × Nat) × Bool) := do
  let g ← best s.1.graph x y
  let d ← launch s.2 { s.1 with graph := g }
  return ((d, s.2 + 1), false)

def soundColumn (best : ConstraintGraph D → UInt64 → UInt64 → M (ConstraintGraph D)) (launch : Launcher D) (c : ConstraintGraph D) (x : UInt64)
    (s : Device D × Nat) : M ((Device D × Nat) × Bool) := do
  let s ← cfor c.disparityGraph.right.height.toNat 0 (fun y => decide (y < c.disparityGraph.right.height)) inc (soundBody best launch x) s
  return (s, false)

def soundSolution (best : ConstraintGraph D → UInt64 → UInt64 → M (ConstraintGraph D)) (launch : Launcher D) (c : ConstraintGraph D) : M (ConstraintGraph D) := do
  let s ← cfor c.disparityGraph.right.width.toNat 0 (fun x => decide (x < c.disparityGraph.right.width)) inc
    (soundColumn best launch c) ({ graph := c, changed := fun _ => false }, 0)
  return s.1.graph

theorem soundBody_64 : soundBody best64 launch = plainBody launch := by
  funext x y s
  unfold soundBody plainBody best64
  cases chooseBestNode s.1.graph { x := x, y := y } <;> rfl

theorem soundSolution_64 (c : ConstraintGraph D) : soundSolution best64 launch c = cspSolutionCuda launch c := by
  rw [cspSolutionCuda_eq]
  unfold soundSolution soundColumn plainColumn
  rw [soundBody_64]

theorem soundSolution_32 (c : ConstraintGraph D) : soundSolution best32 launch c = Cuda.cspSolution launch c := rfl

/-- What is kept by kernels. -/
structure Keeps (c : ConstraintGraph D) (best : ConstraintGraph D → UInt64 → UInt64 → M (ConstraintGraph D)) (launch : Launcher D) (Inv : Device D → Prop) :
    Prop where
  start : Inv { graph := c, changed := fun _ => false }
  choose : ∀ (d : Device D) (x y : UInt64) (g : ConstraintGraph D), Inv d → x < c.disparityGraph.right.width → y < c.disparityGraph.right.height →
    best d.graph x y = .ok g → Inv { d with graph := g }
  launch : ∀ n d d', Inv d → launch n d = .ok d' → Inv d'

/-- `exit`, or an error of a kernel. -/
def FailingError (launch : Launcher D) (Inv : Device D → Prop) (e : Err) : Prop := e = .exit ∨ ∃ n d, Inv d ∧ launch n d = .error e

/-- Something has failed. -/
def Bad (s : Device D × Nat × Runtime) : Prop := s.2.2.last = true ∨ s.2.2.lost = true

/-- A state in which nothing has failed. -/
def clean (t : Device D × Nat) : Device D × Nat × Runtime := (t.1, t.2, {})

theorem failingBody_bad (x y : UInt64) (s : Device D × Nat × Runtime) (hs : Bad s) :
    EndsWith (FailingError launch Inv) (fun r => r.2 = false ∧ Bad r.1) (failingBody trouble best launch x y s) := by
  obtain ⟨d, n, last, lost⟩ := s
  unfold failingBody cudaCheckError
  dsimp only
  cases last
  · obtain rfl : lost = true := hs.elim nofun id
    cases hn : trouble.notice n
    · refine .inr ⟨_, rfl, rfl, ?_⟩
      exact Runtime.call_bad (Runtime.call_bad (.inr rfl) _) _
    · exact .inl ⟨_, .inl rfl, rfl⟩
  · exact .inl ⟨_, .inl rfl, rfl⟩

theorem failingBody_clean {c : ConstraintGraph D} (hk : Keeps c best launch Inv) {x y : UInt64} (hx : x < c.disparityGraph.right.width)
    (hy : y < c.disparityGraph.right.height) (t : Device D × Nat) (ht : Inv t.1) :
    EndsWith (FailingError launch Inv) (fun r => r.2 = false ∧ Bad r.1) (failingBody trouble best launch x y (clean t)) ∨
    (failingBody trouble best launch x y (clean t) = (soundBody best launch x y t).map fun r => (clean r.1, r.2)) ∧
      ∀ r, soundBody best launch x y t = .ok r → Inv r.1.1 := by
  obtain ⟨d, n⟩ := t
  unfold failingBody soundBody clean cudaCheckError
  dsimp only
  have hcheck : ((false || (false && trouble.notice n) : Bool) = true) = False := by simp
  simp only [hcheck, if_false, bind_ok]
  rcases Runtime.call_clean (r := {}) rfl (trouble.choose n) with ⟨h1, h2⟩ | ⟨-, h1⟩
  · have hex : Runtime.executed {} (trouble.choose n) = true := by unfold Runtime.executed; rw [h1]; rfl
    simp only [hex, if_true, h1]
    cases hb : best d.graph x y with
    | error e => exact .inr ⟨rfl, nofun⟩
    | ok g =>
      have hi := hk.choose d x y g ht hx hy hb
      simp only [bind_ok]
      rcases Runtime.call_clean (r := {}) rfl (trouble.iterate n) with ⟨h3, h4⟩ | ⟨-, h3⟩
      · have hex : Runtime.executed {} (trouble.iterate n) = true := by unfold Runtime.executed; rw [h3]; rfl
        simp only [hex, if_true, h3]
        cases hl : launch n { d with graph := g } with
        | error e => exact .inr ⟨rfl, nofun⟩
        | ok d' => exact .inr ⟨rfl, fun r hr => by cases hr; exact hk.launch _ _ _ hi hl⟩
      · left
        split
        · cases hl : launch n { d with graph := g } with
          | error e => exact .inl ⟨e, .inr ⟨_, _, hi, hl⟩, rfl⟩
          | ok d' => exact .inr ⟨_, rfl, rfl, h3⟩
        · exact .inr ⟨_, rfl, rfl, h3⟩
  · left
    by_cases hex : Runtime.executed {} (trouble.choose n) = true
    · exfalso
      unfold Runtime.executed at hex
      generalize trouble.choose n = v at hex h1
      cases v <;> revert hex h1 <;> decide
    · simp only [hex]
      have hrest := fun v => Runtime.call_bad h1 v
      simp only [Bool.false_eq_true, if_false]
      rw [show (pure d.graph : M (ConstraintGraph D)) = .ok d.graph from rfl, bind_ok]
      split
      · cases hl : launch n { d with graph := d.graph } with
        | error e => exact .inl ⟨e, .inr ⟨_, _, ht, hl⟩, rfl⟩
        | ok d' => exact .inr ⟨_, rfl, rfl, hrest _⟩
      · exact .inr ⟨_, rfl, rfl, hrest _⟩

theorem failingColumn_bad (c : ConstraintGraph D) (x : UInt64) (s : Device D × Nat × Runtime) (hs : Bad s) :
    EndsWith (FailingError launch Inv) (fun r => r.2 = false ∧ Bad r.1) (failingColumn trouble best launch c x s) := by
  unfold failingColumn
  rcases cfor_endsWith (P := Bad) (n := c.disparityGraph.right.height) (f := failingBody trouble best launch x) (failingBody_bad x)
    c.disparityGraph.right.height.toNat 0 (by simp) s hs with ⟨e, he, h⟩ | ⟨a, h, ha⟩
  · rw [h]; exact .inl ⟨e, he, rfl⟩
  · rw [h]; exact .inr ⟨_, rfl, rfl, ha⟩

theorem failingColumn_clean {c : ConstraintGraph D} (hk : Keeps c best launch Inv) {x : UInt64} (hx : x < c.disparityGraph.right.width)
    (t : Device D × Nat) (ht : Inv t.1) :
    EndsWith (FailingError launch Inv) (fun r => r.2 = false ∧ Bad r.1) (failingColumn trouble best launch c x (clean t)) ∨
    (failingColumn trouble best launch c x (clean t) = (soundColumn best launch c x t).map fun r => (clean r.1, r.2)) ∧
      ∀ r, soundColumn best launch c x t = .ok r → Inv r.1.1 := by
  unfold failingColumn soundColumn
  rcases cfor_endsWith_or (P := Bad) (I := fun t : Device D × Nat => Inv t.1) (φ := clean) (n := c.disparityGraph.right.height)
    (f := failingBody trouble best launch x) (g := soundBody best launch x) (failingBody_bad (Inv := Inv) x)
    (fun y t hy ht => failingBody_clean hk hx hy t ht) c.disparityGraph.right.height.toNat 0 (by simp) t ht with
    (⟨e, he, h⟩ | ⟨a, h, ha⟩) | ⟨h, hI⟩
  · rw [h]; exact .inl (.inl ⟨e, he, rfl⟩)
  · rw [h]; exact .inl (.inr ⟨_, rfl, rfl, ha⟩)
  · rw [h]
    refine .inr ?_
    generalize cfor _ _ _ _ (soundBody best launch x) t = m at hI
    cases m with
    | error e => exact ⟨rfl, nofun⟩
    | ok r => exact ⟨rfl, fun r hr => by cases hr; exact hI _ rfl⟩

/-- After the last check the device is lost, or nothing has failed. -/
theorem cspSolutionFailing_cases {c : ConstraintGraph D} (hk : Keeps c best launch Inv) :
    (∀ r : Runtime, r.last = true ∨ r.lost = true →
      EndsWith (FailingError launch Inv) (fun a => a.2.lost = true) (cspSolutionFailing trouble best launch c r)) ∧
    (EndsWith (FailingError launch Inv) (fun a => a.2.lost = true) (cspSolutionFailing trouble best launch c {}) ∨
      cspSolutionFailing trouble best launch c {} = (soundSolution best launch c).map fun g => (g, {})) := by
  have last : ∀ a : Device D × Nat × Runtime, Bad a → EndsWith (FailingError launch Inv) (fun a : ConstraintGraph D × Runtime => a.2.lost = true)
      (do cudaCheckError (a.2.2.last || (a.2.2.lost && trouble.noticeLast)); return (a.1.graph, a.2.2)) := by
    rintro ⟨d, n, l, lost⟩ ha
    unfold cudaCheckError
    dsimp only
    cases l
    · obtain rfl : lost = true := ha.elim nofun id
      cases trouble.noticeLast
      · exact .inr ⟨_, rfl, rfl⟩
      · exact .inl ⟨_, .inl rfl, rfl⟩
    · exact .inl ⟨_, .inl rfl, rfl⟩
  constructor
  · intro r hr
    rw [cspSolutionFailing_eq]
    rcases cfor_endsWith (P := Bad) (n := c.disparityGraph.right.width) (f := failingColumn trouble best launch c) (failingColumn_bad c)
      c.disparityGraph.right.width.toNat 0 (by simp) ({ graph := c, changed := fun _ => false }, 0, r) hr with ⟨e, he, h⟩ | ⟨a, h, ha⟩
    · rw [h]; exact .inl ⟨e, he, rfl⟩
    · rw [h, bind_ok]; exact last a ha
  · rw [cspSolutionFailing_eq]
    rcases cfor_endsWith_or (P := Bad) (I := fun t : Device D × Nat => Inv t.1) (φ := clean) (n := c.disparityGraph.right.width)
      (f := failingColumn trouble best launch c) (g := soundColumn best launch c) (failingColumn_bad (Inv := Inv) c)
      (fun x t hx ht => failingColumn_clean hk hx t ht) c.disparityGraph.right.width.toNat 0 (by simp)
      ({ graph := c, changed := fun _ => false }, 0) hk.start with (⟨e, he, h⟩ | ⟨a, h, ha⟩) | ⟨h, -⟩
    · rw [show clean ({ graph := c, changed := fun _ => false }, 0) = ((({ graph := c, changed := fun _ => false } : Device D), 0, {}) : Device D × Nat × Runtime) from rfl] at h
      rw [h]; exact .inl (.inl ⟨e, he, rfl⟩)
    · rw [show clean ({ graph := c, changed := fun _ => false }, 0) = ((({ graph := c, changed := fun _ => false } : Device D), 0, {}) : Device D × Nat × Runtime) from rfl] at h
      rw [h, bind_ok]; exact .inl (last a ha)
    · rw [show clean ({ graph := c, changed := fun _ => false }, 0) = ((({ graph := c, changed := fun _ => false } : Device D), 0, {}) : Device D × Nat × Runtime) from rfl] at h
      rw [h]
      refine .inr ?_
      unfold soundSolution
      generalize cfor _ _ _ _ (soundColumn best launch c) _ = m
      cases m <;> rfl

/-! ## `find_labeling_cuda` -/

/-- The function when nothing fails. -/
def soundLabeling (best : ConstraintGraph D → UInt64 → UInt64 → M (ConstraintGraph D)) (conv : F → D) (launch : Launcher D) (c : ConstraintGraph F) :
    M (ConstraintGraph F × Bool) := do
  let g ← soundSolution best launch (c.onDevice conv)
  return ({ c with nodesAvailability := g.nodesAvailability }, true)

theorem soundLabeling_64 (c : ConstraintGraph F) : soundLabeling best64 conv launch c = findLabelingCuda conv launch c := by
  unfold soundLabeling findLabelingCuda
  rw [soundSolution_64]

theorem soundLabeling_32 (c : ConstraintGraph F) : soundLabeling best32 conv launch c = Cuda.findLabeling conv launch c := rfl

/-- No call fails. -/
structure Trouble.Calm (trouble : Trouble) : Prop where
  prepare : ∀ n, trouble.prepare n = .fine
  choose : ∀ n, trouble.choose n = .fine
  iterate : ∀ n, trouble.iterate n = .fine
  finish : ∀ n, trouble.finish n = .fine

/-- None of these flags, or some of those found. -/
def Partly (find : ConstraintGraph F → M (ConstraintGraph F × Bool)) (c : ConstraintGraph F) (flags : Array Bool) : Prop :=
  flags = Array.replicate c.nodesAvailability.size false ∨
  ∃ (g : ConstraintGraph F) (keep : Nat → Bool), find c = .ok (g, true) ∧ flags = g.nodesAvailability.mapIdx fun i a => a && keep i

/-- Without `assert`. -/
theorem findLabelingFailing_release {c : ConstraintGraph F} (hkeeps : Keeps (c.onDevice conv) best launch Inv) :
    (∃ e, FailingError launch Inv e ∧ findLabelingFailing false trouble best conv launch c = .error e) ∨
    (∃ flags, findLabelingFailing false trouble best conv launch c = .ok (some ({ c with nodesAvailability := flags }, true)) ∧
      Partly (soundLabeling best conv launch) c flags) ∨
    findLabelingFailing false trouble best conv launch c = (soundLabeling best conv launch c).map some := by
  obtain ⟨h1, h2⟩ := cspSolutionFailing_cases (trouble := trouble) hkeeps
  obtain ⟨r, hr, -, -⟩ := errchk_release {} ((List.range 13).map trouble.prepare)
  unfold findLabelingFailing
  rw [hr]
  dsimp only
  -- the device has been lost before the flags are copied
  have lost : ∀ {m : M (ConstraintGraph D × Runtime)} {k : ConstraintGraph D × Runtime → M (Option (ConstraintGraph F × Bool))},
      (∀ a : ConstraintGraph D × Runtime, a.2.lost = true → k a = .ok (some ({ c with nodesAvailability := Array.replicate c.nodesAvailability.size false }, true))) →
      EndsWith (FailingError launch Inv) (fun a => a.2.lost = true) m →
      (∃ e, FailingError launch Inv e ∧ (m >>= k) = .error e) ∨
      (∃ flags, (m >>= k) = .ok (some ({ c with nodesAvailability := flags }, true)) ∧ Partly (soundLabeling best conv launch) c flags) ∨
      (m >>= k) = (soundLabeling best conv launch c).map some := by
    rintro m k hk (⟨e, he, rfl⟩ | ⟨a, rfl, ha⟩)
    · exact .inl ⟨e, he, rfl⟩
    · exact .inr (.inl ⟨_, hk a ha, .inl rfl⟩)
  have hk : ∀ a : ConstraintGraph D × Runtime, a.2.lost = true →
      (match errchk false a.2 [trouble.finish 0] with
        | none => (pure none : M (Option (ConstraintGraph F × Bool)))
        | some r => if (false && !(r.call (trouble.finish 1)).1) = true then pure none
          else match errchk false (r.call (trouble.finish 1)).2 ((List.range 9).map fun i => trouble.finish (i + 2)) with
          | none => pure none
          | some _ => pure (some ({ c with nodesAvailability :=
              if (r.call (trouble.finish 1)).1 = true then a.1.nodesAvailability
              else if r.lost = true then Array.replicate c.nodesAvailability.size false
              else a.1.nodesAvailability.mapIdx fun i a => a && trouble.copied i }, true))) =
        .ok (some ({ c with nodesAvailability := Array.replicate c.nodesAvailability.size false }, true)) := by
    intro a ha
    obtain ⟨r1, e1, -, e2⟩ := errchk_release a.2 [trouble.finish 0]
    rw [e1]
    dsimp only
    have hl := e2 ha
    obtain ⟨r2, e3, -, -⟩ := errchk_release (r1.call (trouble.finish 1)).2 ((List.range 9).map fun i => trouble.finish (i + 2))
    rw [e3]
    simp only [Runtime.call_lost hl, hl, Bool.false_and, Bool.false_eq_true, if_false, if_true]
    rfl
  rcases r.bad_or_clean with hbad | hclean
  · exact lost hk (h1 r hbad)
  obtain rfl : r = {} := hclean
  rcases h2 with h2 | h2
  · exact lost hk h2
  rw [h2]
  unfold soundLabeling
  cases hg : soundSolution best launch (c.onDevice conv) with
  | error e => exact .inr (.inr rfl)
  | ok g =>
    have hsound : soundLabeling best conv launch c = .ok ({ c with nodesAvailability := g.nodesAvailability }, true) := by
      unfold soundLabeling
      rw [hg]
      rfl
    right
    rw [show (Except.map (fun g => (g, ({} : Runtime))) (Except.ok g) : M (ConstraintGraph D × Runtime)) = .ok (g, {}) from rfl, bind_ok]
    dsimp only
    obtain ⟨r1, e1, -, -⟩ := errchk_release {} [trouble.finish 0]
    rw [e1]
    dsimp only
    obtain ⟨r2, e3, -, -⟩ := errchk_release (r1.call (trouble.finish 1)).2 ((List.range 9).map fun i => trouble.finish (i + 2))
    rw [e3]
    simp only [Bool.false_and, Bool.false_eq_true, if_false]
    cases (r1.call (trouble.finish 1)).1
    · left
      cases r1.lost
      · exact ⟨_, rfl, .inr ⟨_, trouble.copied, hsound, rfl⟩⟩
      · exact ⟨_, rfl, .inl rfl⟩
    · exact .inr rfl

theorem cspSolutionFailing_calm (h : trouble.Calm) (c : ConstraintGraph D) :
    cspSolutionFailing trouble best launch c {} = (soundSolution best launch c).map fun g => (g, {}) := by
  have hex : Runtime.executed {} .fine = true := rfl
  have hcall : Runtime.call {} .fine = (true, {}) := rfl
  have hbody : ∀ (x y : UInt64) (t : Device D × Nat), (soundBody best launch x y t).map (fun r => (clean r.1, r.2)) =
      failingBody trouble best launch x y (clean t) := by
    intro x y t
    unfold soundBody failingBody clean cudaCheckError
    simp only [h.choose, h.iterate, hex, hcall, if_true, Bool.false_and, Bool.or_false, Bool.false_eq_true, if_false, bind_ok]
    cases best t.1.graph x y with
    | error e => rfl
    | ok g =>
      rw [bind_ok, bind_ok]
      cases launch t.2 { t.1 with graph := g } <;> rfl
  have hcolumn : ∀ (x : UInt64) (t : Device D × Nat), (soundColumn best launch c x t).map (fun r => (clean r.1, r.2)) =
      failingColumn trouble best launch c x (clean t) := by
    intro x t
    unfold soundColumn failingColumn
    rw [← cfor_map clean (hbody x)]
    generalize cfor _ _ _ _ (soundBody best launch x) t = m
    cases m <;> rfl
  rw [cspSolutionFailing_eq]
  show (cfor _ _ _ _ _ (clean ({ graph := c, changed := fun _ => false }, 0)) >>= _) = _
  unfold soundSolution
  rw [← cfor_map clean hcolumn]
  generalize cfor _ _ _ _ (soundColumn best launch c) _ = m
  cases m <;> rfl

/-- If nothing fails. -/
theorem findLabelingFailing_calm (asserts : Bool) (h : trouble.Calm) (c : ConstraintGraph F) :
    findLabelingFailing asserts trouble best conv launch c = (soundLabeling best conv launch c).map some := by
  unfold findLabelingFailing soundLabeling
  have h1 : ∀ (n : Nat) (f : Nat → Verdict), (∀ i, f i = .fine) → errchk asserts {} ((List.range n).map f) = some {} := by
    intro n f hf
    refine errchk_fine asserts fun v hv => ?_
    obtain ⟨i, -, rfl⟩ := List.mem_map.1 hv
    exact hf i
  have hcall : Runtime.call {} .fine = (true, {}) := rfl
  rw [h1 13 _ h.prepare]
  dsimp only
  rw [cspSolutionFailing_calm h]
  cases soundSolution best launch (c.onDevice conv) with
  | error e => rfl
  | ok g =>
    rw [show (Except.map (fun g => (g, ({} : Runtime))) (Except.ok g) : M (ConstraintGraph D × Runtime)) = .ok (g, {}) from rfl, bind_ok, bind_ok]
    dsimp only
    rw [errchk_fine asserts (vs := [trouble.finish 0]) (by simp [h.finish])]
    dsimp only
    rw [h.finish 1, hcall]
    simp only [Bool.not_true, Bool.and_false, Bool.false_eq_true, if_false, if_true]
    rw [h1 9 (fun i => trouble.finish (i + 2)) fun i => h.finish _]
    rfl

/-- With `assert`: nothing else is possible than that the process is ended after a failure. -/
theorem findLabelingFailing_asserts (c : ConstraintGraph F) :
    findLabelingFailing true trouble best conv launch c = findLabelingFailing false trouble best conv launch c ∨
    (findLabelingFailing true trouble best conv launch c = .ok none ∧ ¬ trouble.Calm) := by
  by_cases hcalm : trouble.Calm
  · rw [findLabelingFailing_calm true hcalm, findLabelingFailing_calm false hcalm]
    exact .inl rfl
  suffices h : findLabelingFailing true trouble best conv launch c = findLabelingFailing false trouble best conv launch c ∨
      findLabelingFailing true trouble best conv launch c = .ok none from h.imp_right fun h => ⟨h, hcalm⟩
  unfold findLabelingFailing
  rcases errchk_asserts {} ((List.range 13).map trouble.prepare) with h1 | ⟨h1, -⟩
  swap
  · rw [h1]; exact .inr rfl
  rw [h1]
  obtain ⟨r, hr, -, -⟩ := errchk_release {} ((List.range 13).map trouble.prepare)
  rw [hr]
  dsimp only
  cases cspSolutionFailing trouble best launch (c.onDevice conv) r with
  | error e => exact .inl rfl
  | ok a =>
    rw [bind_ok, bind_ok]
    rcases errchk_asserts a.2 [trouble.finish 0] with h2 | ⟨h2, -⟩
    swap
    · rw [h2]; exact .inr rfl
    rw [h2]
    obtain ⟨r1, hr1, -, -⟩ := errchk_release a.2 [trouble.finish 0]
    rw [hr1]
    dsimp only
    cases hcall : (r1.call (trouble.finish 1)).1
    · exact .inr rfl
    simp only [Bool.not_true, Bool.and_false, Bool.false_eq_true, if_false, if_true]
    rcases errchk_asserts (r1.call (trouble.finish 1)).2 ((List.range 9).map fun i => trouble.finish (i + 2)) with h3 | ⟨h3, -⟩
    · rw [h3]; exact .inl rfl
    · rw [h3]; exact .inr rfl

/-- Without `assert` the process is not ended by it. -/
theorem findLabelingFailing_some (c : ConstraintGraph F) :
    findLabelingFailing false trouble best conv launch c = (findLabelingRelease trouble best conv launch c).map some := by
  have h : findLabelingFailing false trouble best conv launch c ≠ .ok none := by
    intro h
    unfold findLabelingFailing at h
    obtain ⟨r, hr, -, -⟩ := errchk_release {} ((List.range 13).map trouble.prepare)
    rw [hr] at h
    obtain ⟨a, -, h⟩ := bind_eq_ok h
    obtain ⟨r1, hr1, -, -⟩ := errchk_release a.2 [trouble.finish 0]
    dsimp only at h
    rw [hr1] at h
    obtain ⟨r2, hr2, -, -⟩ := errchk_release (r1.call (trouble.finish 1)).2 ((List.range 9).map fun i => trouble.finish (i + 2))
    dsimp only at h
    rw [hr2] at h
    cases h
  unfold findLabelingRelease
  cases hm : findLabelingFailing false trouble best conv launch c with
  | error e => rfl
  | ok r =>
    cases r with
    | none => exact absurd hm h
    | some r => rfl

theorem errchk_last {r : Runtime} (h : r.last = true) (vs : List Verdict) : ∃ r', errchk false r vs = some r' ∧ r'.last = true := by
  induction vs generalizing r with
  | nil => exact ⟨r, rfl, h⟩
  | cons v vs ih =>
    refine ih (r := (r.call v).2) ?_
    unfold Runtime.call
    cases r.lost <;> cases v <;> simp [h]

/-- A call that fails ends the process, or is remembered. -/
theorem errchk_refused (r : Runtime) {vs : List Verdict} (h : ∃ v, v ∈ vs ∧ (v = .refused ∨ v = .lost)) :
    errchk true r vs = none ∧ ∃ r', errchk false r vs = some r' ∧ r'.last = true := by
  induction vs generalizing r with
  | nil => obtain ⟨v, hv, -⟩ := h; cases hv
  | cons v vs ih =>
    by_cases hv : (r.call v).1 = true
    · have hne : ¬ (v = .refused ∨ v = .lost) := by
        rintro (rfl | rfl) <;> unfold Runtime.call at hv <;> cases hr : r.lost <;> rw [hr] at hv <;> simp at hv
      obtain ⟨u, hu, hu'⟩ := h
      rcases List.mem_cons.1 hu with rfl | hu
      · exact absurd hu' hne
      · unfold errchk
        simp only [hv, Bool.not_true, Bool.and_false, Bool.false_eq_true, if_false]
        exact ih _ ⟨u, hu, hu'⟩
    · have hlast : (r.call v).2.last = true := by
        unfold Runtime.call at hv ⊢
        cases hr : r.lost <;> rw [hr] at hv <;> cases v <;> simp at hv ⊢
      unfold errchk
      simp only [hv, Bool.not_false, Bool.and_true, Bool.false_eq_true, if_false, if_true, Bool.false_and, true_and]
      exact errchk_last hlast vs

/-- A failure before the first launch is noticed. -/
theorem cspSolutionFailing_last {r : Runtime} (h : r.last = true) {c : ConstraintGraph D} (hw : 0 < c.disparityGraph.right.width.toNat)
    (hh : 0 < c.disparityGraph.right.height.toNat) : cspSolutionFailing trouble best launch c r = .error .exit := by
  unfold cspSolutionFailing
  obtain ⟨w, hwe⟩ : ∃ w, c.disparityGraph.right.width.toNat = w + 1 := ⟨_, (Nat.succ_pred_eq_of_pos hw).symm⟩
  obtain ⟨k, hhe⟩ : ∃ k, c.disparityGraph.right.height.toNat = k + 1 := ⟨_, (Nat.succ_pred_eq_of_pos hh).symm⟩
  have h1 : (0 : UInt64) < c.disparityGraph.right.width := UInt64.lt_iff_toNat_lt.2 hw
  have h2 : (0 : UInt64) < c.disparityGraph.right.height := UInt64.lt_iff_toNat_lt.2 hh
  rw [hwe, hhe]
  unfold cfor
  simp only [h1, decide_true, if_true]
  unfold cfor
  simp only [h2, decide_true, if_true, h, Bool.true_or]
  rfl

/-- The function of a program compiled without `assert`. -/
theorem findLabelingRelease_cases {c : ConstraintGraph F} (hkeeps : Keeps (c.onDevice conv) best launch Inv) :
    (∃ e, FailingError launch Inv e ∧ findLabelingRelease trouble best conv launch c = .error e) ∨
    (∃ flags, findLabelingRelease trouble best conv launch c = .ok ({ c with nodesAvailability := flags }, true) ∧
      Partly (soundLabeling best conv launch) c flags) ∨
    findLabelingRelease trouble best conv launch c = soundLabeling best conv launch c := by
  unfold findLabelingRelease
  rcases findLabelingFailing_release (trouble := trouble) hkeeps with ⟨e, he, h⟩ | ⟨flags, h, hf⟩ | h
  · rw [h]; exact .inl ⟨e, he, rfl⟩
  · rw [h]; exact .inr (.inl ⟨flags, rfl, hf⟩)
  · rw [h]
    refine .inr (.inr ?_)
    cases soundLabeling best conv launch c <;> rfl

/-- Launches that exceed limits of the device are refused. -/
def Trouble.ofLimits (limits : Limits) (c : ConstraintGraph F) : Trouble where
  prepare _ := .fine
  notice _ := false
  choose _ := .fine
  iterate _ := if limits.Fits c then .fine else .refused
  noticeLast := false
  finish _ := .fine
  copied _ := false

/-- Devices with limits are a case of this. -/
theorem findLabelingRelease_limits (limits : Limits) (c : ConstraintGraph F) :
    findLabelingRelease (.ofLimits limits c) best64 conv launch c = findLabelingCudaLimited limits conv launch c := by
  by_cases hfit : limits.Fits c
  · rw [findLabelingCudaLimited_fits hfit]
    unfold findLabelingRelease
    rw [findLabelingFailing_calm false ⟨fun _ => rfl, fun _ => rfl, fun _ => if_pos hfit, fun _ => rfl⟩, soundLabeling_64]
    cases findLabelingCuda conv launch c <;> rfl
  let mark (s : Device D × Nat × Bool) : Device D × Nat × Runtime := (s.1, s.2.1, { last := s.2.2 })
  have hfit' : ¬ limits.Fits (c.onDevice conv) := hfit
  have hit : ∀ n, (Trouble.ofLimits limits c).iterate n = .refused := fun n => if_neg hfit
  have hbody : ∀ (x y : UInt64) (s : Device D × Nat × Bool), (limitedBody limits launch (c.onDevice conv) x y s).map (fun r => (mark r.1, r.2)) =
      failingBody (.ofLimits limits c) best64 launch x y (mark s) := by
    rintro x y ⟨d, n, failed⟩
    unfold limitedBody failingBody
    cases failed
    · simp only [mark, hit, hfit', if_false, cudaCheckError, Bool.false_and, Bool.or_false, Bool.false_eq_true, bind_ok]
      have e1 : Runtime.executed { last := false } ((Trouble.ofLimits limits c).choose n) = true := rfl
      have e2 : Runtime.call { last := false } ((Trouble.ofLimits limits c).choose n) = (true, {}) := rfl
      have e3 : Runtime.executed {} .refused = false := rfl
      have e4 : Runtime.call {} .refused = (false, { last := true }) := rfl
      simp only [e1, e2, e3, e4, if_true, Bool.false_eq_true, if_false]
      unfold best64
      cases chooseBestNode d.graph { x := x, y := y } <;> rfl
    · rfl
  have hcolumn : ∀ (x : UInt64) (s : Device D × Nat × Bool), (limitedColumn limits launch (c.onDevice conv) x s).map (fun r => (mark r.1, r.2)) =
      failingColumn (.ofLimits limits c) best64 launch (c.onDevice conv) x (mark s) := by
    intro x s
    unfold limitedColumn failingColumn
    rw [← cfor_map mark (hbody x)]
    generalize cfor _ _ _ _ (limitedBody limits launch (c.onDevice conv) x) s = m
    cases m <;> rfl
  have hsol : cspSolutionFailing (.ofLimits limits c) best64 launch (c.onDevice conv) {} =
      (cspSolutionCudaLimited limits launch (c.onDevice conv)).map fun g => (g, {}) := by
    rw [cspSolutionFailing_eq, cspSolutionCudaLimited_eq]
    show (cfor _ _ _ _ _ (mark ({ graph := c.onDevice conv, changed := fun _ => false }, 0, false)) >>= _) = _
    rw [← cfor_map mark hcolumn]
    generalize cfor _ _ _ _ (limitedColumn limits launch (c.onDevice conv)) _ = m
    rcases m with e | ⟨d, n, failed⟩
    · rfl
    · cases failed <;> rfl
  unfold findLabelingRelease findLabelingFailing findLabelingCudaLimited
  have h1 : ∀ (n : Nat) (f : Nat → Verdict), (∀ i, f i = .fine) → errchk false {} ((List.range n).map f) = some {} := by
    intro n f hf
    refine errchk_fine false fun v hv => ?_
    obtain ⟨i, -, rfl⟩ := List.mem_map.1 hv
    exact hf i
  rw [h1 13 (Trouble.ofLimits limits c).prepare fun _ => rfl]
  dsimp only
  rw [hsol]
  cases cspSolutionCudaLimited limits launch (c.onDevice conv) with
  | error e => rfl
  | ok g => rfl

end Gpu
end SP
