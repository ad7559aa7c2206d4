import Verif.Lemmas.ParLogic
import Verif.Lemmas.Core
/-!
# A worker that runs alone does what the sequential model says
-/
set_option linter.unusedSectionVars false

namespace SP
open FloatOps
variable {F : Type} [FloatOps F] {c : ConstraintGraph F} {B : Nat}

/-- Execution of a program without others: words have single values. A barrier is waited for forever. -/
def Prog.run {α : Type} : Prog α → (Nat → Flags) → M (α × (Nat → Flags))
  | .ret a, mem => .ok (a, mem)
  | .fail e, _ => .error e
  | .load w k, mem => (k (mem w)).run mem
  | .store w v k, mem => k.run (setAt mem w v)
  | .barrier _, _ => .error .nonterm

theorem Prog.run_bind {α β : Type} (p : Prog α) (f : α → Prog β) (mem : Nat → Flags) :
    (p.bind f).run mem = (p.run mem).bind fun r => (f r.1).run r.2 := by
  induction p generalizing mem with
  | ret a => rfl
  | fail e => rfl
  | load w k ih => exact ih _ _
  | store w v k ih => exact ih _
  | barrier k ih => rfl

theorem prog_bind_ret {α : Type} (p : Prog α) : p.bind Prog.ret = p := by
  induction p with
  | ret a => rfl
  | fail e => rfl
  | load w k ih => exact congrArg _ (funext ih)
  | store w v k ih => exact congrArg _ ih
  | barrier k ih => exact congrArg _ ih

/-- The program alone has the outcome of the computation of the sequential model, results being related by `R`. -/
def Alone {α β : Type} (p : Prog α) (mem : Nat → Flags) (m : M β) (R : α → (Nat → Flags) → β → Prop) : Prop :=
  match m with
  | .ok b => ∃ a mem', p.run mem = .ok (a, mem') ∧ R a mem' b
  | .error e => p.run mem = .error e

theorem Alone.bind {α β γ δ : Type} {p : Prog α} {f : α → Prog γ} {mem : Nat → Flags} {m : M β} {k : β → M δ}
    {R : α → (Nat → Flags) → β → Prop} {R' : γ → (Nat → Flags) → δ → Prop} (h : Alone p mem m R)
    (hf : ∀ a mem' b, R a mem' b → Alone (f a) mem' (k b) R') : Alone (p.bind f) mem (m >>= k) R' := by
  cases m with
  | error e =>
    have h' : p.run mem = .error e := h
    show (p.bind f).run mem = .error e
    rw [Prog.run_bind, h']; rfl
  | ok b =>
    obtain ⟨a, mem', hr, hR⟩ := h
    have := hf a mem' b hR
    rw [bind_ok]
    unfold Alone at this ⊢
    split at this <;> rw [Prog.run_bind, hr] <;> exact this

theorem Alone.ret {α β : Type} {a : α} {mem : Nat → Flags} {b : β} {R : α → (Nat → Flags) → β → Prop}
    (h : R a mem b) : Alone (.ret a) mem (.ok b) R := ⟨a, mem, rfl, h⟩

theorem Alone.mono {α β : Type} {p : Prog α} {mem : Nat → Flags} {m : M β}
    {R R' : α → (Nat → Flags) → β → Prop} (h : Alone p mem m R) (hR : ∀ a mem' b, R a mem' b → R' a mem' b) :
    Alone p mem m R' := by
  cases m with
  | error e => exact h
  | ok b =>
    obtain ⟨a, mem', hr, h1⟩ := h
    exact ⟨a, mem', hr, hR _ _ _ h1⟩

theorem Alone.lift {α : Type} {m : M α} {mem : Nat → Flags} :
    Alone (Prog.lift m) mem m fun a mem' b => a = b ∧ mem' = mem := by
  cases m with
  | error e => rfl
  | ok b => exact ⟨b, mem, rfl, rfl, rfl⟩

theorem cfor_succ {ι σ : Type} (fuel : Nat) (i : ι) (cond : ι → Bool) (step : ι → ι)
    (body : ι → σ → M (σ × Bool)) (s : σ) : cfor (fuel + 1) i cond step body s =
      if cond i then body i s >>= fun r => if r.2 then .ok r.1 else cfor fuel (step i) cond step body r.1
      else .ok s := by
  rw [cfor]
  rcases body i s with e | ⟨t, b⟩
  · rfl
  · cases b <;> rfl

theorem Alone.for {ι σ τ : Type} {fuel : Nat} {i : ι} {cond : ι → Bool} {step : ι → ι}
    {body : ι → σ → Prog (σ × Bool)} {body' : ι → τ → M (τ × Bool)} {s : σ} {s' : τ} {mem : Nat → Flags}
    (R : σ → (Nat → Flags) → τ → Prop) (h0 : R s mem s')
    (hb : ∀ i s mem s', R s mem s' → Alone (body i s) mem (body' i s') fun a mem' b => a.2 = b.2 ∧ R a.1 mem' b.1) :
    Alone (pfor fuel i cond step body s) mem (cfor fuel i cond step body' s') R := by
  induction fuel generalizing i s s' mem with
  | zero =>
    unfold pfor cfor
    split
    · rfl
    · exact .ret h0
  | succ fuel ih =>
    rw [cfor_succ]
    unfold pfor
    split
    · have hbody := hb i s mem s' h0
      refine hbody.bind ?_
      rintro ⟨a, b⟩ mem' ⟨a', b'⟩ ⟨he, hR⟩
      simp only at he hR ⊢
      subst he
      cases b
      · exact ih hR
      · exact .ret hR
    · exact .ret h0

/-! ## Functions of `constraint_graph.cpp` -/

/-- Words hold the flags of the array. -/
def Agrees (B : Nat) (mem : Nat → Flags) (a : Array Bool) : Prop :=
  ∀ i, i < a.size → mem (i / B) i = a.getD i false

theorem rdFlag_sim {mem : Nat → Flags} {a : Array Bool} (h : Agrees B mem a) (i : UInt64) :
    Alone (Par.rdFlag B a.size i) mem (rd a i) fun r mem' r' => r = r' ∧ mem' = mem := by
  unfold Par.rdFlag rd
  by_cases hi : i.toNat < a.size
  · rw [if_pos hi, Array.getElem?_eq_getElem hi]
    refine ⟨_, mem, rfl, ?_, rfl⟩
    rw [h _ hi]
    simp [Array.getD, hi]
  · rw [if_neg hi, Array.getElem?_eq_none (by omega)]
    rfl

theorem wrFlag_sim {mem : Nat → Flags} {a : Array Bool} (h : Agrees B mem a) (i : UInt64) (b : Bool) :
    Alone (Par.wrFlag B a.size i b) mem (wr a i b) fun _ mem' a' => a'.size = a.size ∧ Agrees B mem' a' := by
  unfold Par.wrFlag wr
  by_cases hi : i.toNat < a.size
  · rw [if_pos hi, if_pos hi]
    refine ⟨_, _, rfl, by simp, ?_⟩
    intro j hj
    have hj' : j < a.size := by simpa using hj
    by_cases hij : j = i.toNat
    · subst hij
      simp [setAt, Array.getD, hi]
    · have e : (a.setIfInBounds i.toNat b).getD j false = a.getD j false := by
        simp only [Array.getD_eq_getD_getElem?, Array.getElem?_setIfInBounds]
        rw [if_neg (by omega)]
      rw [e, ← h j hj']
      unfold setAt
      by_cases hw : j / B = i.toNat / B
      · rw [if_pos hw, if_neg hij, hw]
      · rw [if_neg hw]
  · rw [if_neg hi, if_neg hi]
    rfl

/-- The graph with other flags. -/
def ConstraintGraph.put (c : ConstraintGraph F) (a : Array Bool) : ConstraintGraph F := { c with nodesAvailability := a }

section
variable {mem : Nat → Flags} {a : Array Bool} (hs : a.size = c.nodesAvailability.size) (h : Agrees B mem a)
include hs h

theorem isNodeAvailable_sim (node : Node) :
    Alone (Par.isNodeAvailable B c node) mem (isNodeAvailable (c.put a) node) fun r mem' r' => r = r' ∧ mem' = mem := by
  unfold Par.isNodeAvailable isNodeAvailable
  rw [← hs]
  exact rdFlag_sim h _

theorem makeNodeUnavailable_sim (node : Node) :
    Alone (Par.makeNodeUnavailable B c node) mem (makeNodeUnavailable (c.put a) node) fun _ mem' g =>
      ∃ a', a'.size = c.nodesAvailability.size ∧ Agrees B mem' a' ∧ g = c.put a' := by
  unfold Par.makeNodeUnavailable makeNodeUnavailable
  rw [← hs]
  have := (wrFlag_sim h (nodeIndex c.disparityGraph node) false).bind (f := Prog.ret)
    (k := fun a => (.ok { c.put a with nodesAvailability := a } : M (ConstraintGraph F)))
    (R' := fun _ mem' g => ∃ a', a'.size = a.size ∧ Agrees B mem' a' ∧ g = c.put a')
    (fun _ mem' a' ⟨h1, h2⟩ => .ret ⟨a', h1, h2, rfl⟩)
  rwa [show ∀ p : Prog Unit, p.bind Prog.ret = p from prog_bind_ret] at this

theorem makeAllNodesUnavailable_sim :
    Alone (Par.makeAllNodesUnavailable B c) mem (makeAllNodesUnavailable (c.put a)) fun _ mem' g =>
      ∃ a', a'.size = c.nodesAvailability.size ∧ Agrees B mem' a' ∧ g = c.put a' := by
  unfold Par.makeAllNodesUnavailable makeAllNodesUnavailable
  have hfor : Alone (pfor (nodesCount c.disparityGraph).toNat 0
      (fun index => decide (index < nodesCount c.disparityGraph)) inc
      (fun index _ => do
        Par.wrFlag B c.nodesAvailability.size index false
        return ((), false)) ()) mem
      (cfor (nodesCount c.disparityGraph).toNat 0
      (fun index => decide (index < nodesCount c.disparityGraph)) inc
      (fun index a => do
        let a ← wr a index false
        return (a, false)) a)
      fun _ mem' a' => a'.size = c.nodesAvailability.size ∧ Agrees B mem' a' := by
    refine Alone.for (fun _ mem' a' => a'.size = c.nodesAvailability.size ∧ Agrees B mem' a') ⟨hs, h⟩ ?_
    rintro i - mem1 a1 ⟨h1, h2⟩
    rw [← h1]
    exact (wrFlag_sim h2 i false).bind fun _ mem' a' h => .ret ⟨rfl, h⟩
  have := hfor.bind (f := Prog.ret)
    (k := fun a => (.ok { c.put a with nodesAvailability := a } : M (ConstraintGraph F)))
    (R' := fun _ mem' g => ∃ a', a'.size = c.nodesAvailability.size ∧ Agrees B mem' a' ∧ g = c.put a')
    (fun _ mem' a' ⟨h1, h2⟩ => .ret ⟨a', h1, h2, rfl⟩)
  rwa [show ∀ p : Prog Unit, p.bind Prog.ret = p from prog_bind_ret] at this

theorem isEdgeAvailable_sim (edge : Edge) :
    Alone (Par.isEdgeAvailable B c edge) mem (isEdgeAvailable (c.put a) edge) fun r mem' r' => r = r' ∧ mem' = mem := by
  unfold Par.isEdgeAvailable isEdgeAvailable
  refine Alone.lift.bind ?_
  rintro p _ _ ⟨rfl, rfl⟩
  refine Alone.lift.bind ?_
  rintro l _ _ ⟨rfl, rfl⟩
  simp only [show (c.put a).threshold = c.threshold from rfl]
  split
  · exact .ret ⟨rfl, rfl⟩
  refine (isNodeAvailable_sim hs h _).bind ?_
  rintro b _ _ ⟨rfl, rfl⟩
  split
  · exact .ret ⟨rfl, rfl⟩
  refine (isNodeAvailable_sim hs h _).bind ?_
  rintro b _ _ ⟨rfl, rfl⟩
  split
  · exact .ret ⟨rfl, rfl⟩
  exact .ret ⟨rfl, rfl⟩

theorem edgeFound_sim (node : Node) (neighbor : Pixel) :
    Alone (Par.edgeFound B c node neighbor) mem (edgeFound (c.put a) node neighbor)
      fun r mem' r' => r = r' ∧ mem' = mem := by
  unfold Par.edgeFound edgeFound
  refine Alone.for (fun r mem' r' => r = r' ∧ mem' = mem) ⟨rfl, rfl⟩ ?_
  rintro d r _ _ ⟨rfl, rfl⟩
  refine (isEdgeAvailable_sim hs h _).bind ?_
  rintro b _ _ ⟨rfl, rfl⟩
  split <;> exact .ret ⟨rfl, rfl, rfl⟩

theorem shouldRemoveNode_sim (node : Node) :
    Alone (Par.shouldRemoveNode B c node) mem (shouldRemoveNode (c.put a) node)
      fun r mem' r' => r = r' ∧ mem' = mem := by
  unfold Par.shouldRemoveNode shouldRemoveNode
  refine (isNodeAvailable_sim hs h _).bind ?_
  rintro b mem _ ⟨rfl, rfl⟩
  split
  · exact .ret ⟨rfl, rfl⟩
  refine Alone.for (fun r mem' r' => r = r' ∧ mem' = mem) ⟨rfl, rfl⟩ ?_
  rintro k r _ _ ⟨rfl, rfl⟩
  simp only [show (c.put a).disparityGraph = c.disparityGraph from rfl]
  split
  · exact .ret ⟨rfl, rfl, rfl⟩
  refine (edgeFound_sim hs h _ _).bind ?_
  rintro b _ _ ⟨rfl, rfl⟩
  split <;> exact .ret ⟨rfl, rfl, rfl⟩

theorem checkNodesLeft_sim :
    Alone (Par.checkNodesLeft B c) mem (checkNodesLeft (c.put a)) fun r mem' r' => r = r' ∧ mem' = mem := by
  unfold Par.checkNodesLeft checkNodesLeft
  refine Alone.for (fun r mem' r' => r = r' ∧ mem' = mem) ⟨rfl, rfl⟩ ?_
  rintro k r _ _ ⟨rfl, rfl⟩
  rw [← hs]
  refine (rdFlag_sim h _).bind ?_
  rintro b _ _ ⟨rfl, rfl⟩
  split <;> exact .ret ⟨rfl, rfl, rfl⟩

theorem pixelAvailable_sim (pixel : Pixel) :
    Alone (Par.pixelAvailable B c pixel) mem (pixelAvailable (c.put a) pixel)
      fun r mem' r' => r = r' ∧ mem' = mem := by
  unfold Par.pixelAvailable pixelAvailable
  refine Alone.for (fun r mem' r' => r = r' ∧ mem' = mem) ⟨rfl, rfl⟩ ?_
  rintro k r _ _ ⟨rfl, rfl⟩
  refine (isNodeAvailable_sim hs h _).bind ?_
  rintro b _ _ ⟨rfl, rfl⟩
  split <;> exact .ret ⟨rfl, rfl, rfl⟩

theorem cspProcessPixel_sim (pixel : Pixel) :
    Alone (Par.cspProcessPixel B c pixel) mem (cspProcessPixel (c.put a) pixel) fun r mem' r' =>
      r = r'.2 ∧ ∃ a', a'.size = c.nodesAvailability.size ∧ Agrees B mem' a' ∧ r'.1 = c.put a' := by
  unfold Par.cspProcessPixel cspProcessPixel
  refine Alone.for (s' := (c.put a, false)) (fun r mem' (r' : ConstraintGraph F × Bool) =>
    r = r'.2 ∧ ∃ a', a'.size = c.nodesAvailability.size ∧ Agrees B mem' a' ∧ r'.1 = c.put a')
    ⟨rfl, a, hs, h, rfl⟩ ?_
  rintro d r mem1 ⟨g, -⟩ ⟨rfl, a1, h1, h2, rfl⟩
  refine (shouldRemoveNode_sim h1 h2 _).bind ?_
  rintro b _ _ ⟨rfl, rfl⟩
  split
  · refine (makeNodeUnavailable_sim h1 h2 _).bind ?_
    rintro - mem' g hg
    exact .ret ⟨rfl, rfl, hg⟩
  · exact .ret ⟨rfl, rfl, a1, h1, h2, rfl⟩

/-- The worker of the concurrent model, when it runs alone, does what the sequential model says. -/
theorem cspSolutionIteration_sim (jobs job : UInt64) :
    Alone (Par.cspSolutionIteration B c jobs job) mem (cspSolutionIteration (c.put a) jobs job) fun r mem' r' =>
      r = r'.2 ∧ ∃ a', a'.size = c.nodesAvailability.size ∧ Agrees B mem' a' ∧ r'.1 = c.put a' := by
  unfold Par.cspSolutionIteration cspSolutionIteration
  simp only [show (c.put a).disparityGraph = c.disparityGraph from rfl]
  split
  · exact .ret ⟨rfl, a, hs, h, rfl⟩
  let R : Bool → (Nat → Flags) → ConstraintGraph F × Bool → Prop := fun r mem' r' =>
    r = r'.2 ∧ ∃ a', a'.size = c.nodesAvailability.size ∧ Agrees B mem' a' ∧ r'.1 = c.put a'
  refine Alone.bind (R := R) ?_ ?_
  · refine Alone.for R ⟨rfl, a, hs, h, rfl⟩ ?_
    rintro y r mem1 ⟨g, -⟩ ⟨rfl, a1, h1, h2, rfl⟩
    refine Alone.bind (R := R) ?_ ?_
    · refine Alone.for R ⟨rfl, a1, h1, h2, rfl⟩ ?_
      rintro x r mem1 ⟨g, -⟩ ⟨rfl, a1, h1, h2, rfl⟩
      refine (cspProcessPixel_sim h1 h2 _).bind ?_
      rintro r mem1 ⟨g, -⟩ ⟨rfl, a1, h1, h2, rfl⟩
      refine (pixelAvailable_sim h1 h2 _).bind ?_
      rintro b _ _ ⟨rfl, rfl⟩
      split <;> exact .ret ⟨rfl, rfl, a1, h1, h2, rfl⟩
    · rintro r mem1 ⟨g, -⟩ ⟨rfl, a1, h1, h2, rfl⟩
      simp only
      split <;> exact .ret ⟨rfl, rfl, a1, h1, h2, rfl⟩
  · rintro r mem1 ⟨g, -⟩ ⟨rfl, a1, h1, h2, rfl⟩
    simp only
    split
    · refine (checkNodesLeft_sim h1 h2).bind ?_
      rintro b _ _ ⟨rfl, rfl⟩
      split
      · exact .ret ⟨rfl, a1, h1, h2, rfl⟩
      · refine (makeAllNodesUnavailable_sim h1 h2).bind ?_
        rintro - mem' g hg
        exact .ret ⟨rfl, hg⟩
    · exact .ret ⟨rfl, a1, h1, h2, rfl⟩

end
end SP
