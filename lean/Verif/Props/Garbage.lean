import Verif.Model.Garbage
import Verif.Lemmas.Footprint
import Verif.Lemmas.Transfer
import Verif.Props.CudaKernel
/-!
# C122: memory that is not initialised does not matter

What is in `changed` before a launch does not matter: each work item writes these cells before it reads them.
-/
set_option linter.unusedSectionVars false
set_option maxRecDepth 1000000

namespace SP
open FloatOps ConstraintGraph Gpu
variable {F D : Type} [FloatOps F] [FloatOps D] {α β : Type}

/-! ## Programs that differ in what is not theirs -/

/-- Programs that do the same, whatever is loaded besides the flag of the word. -/
inductive Prog.Alike : Prog α → Prog α → Prop where
  | ret (a : α) : Alike (.ret a) (.ret a)
  | fail (e : Err) : Alike (.fail e) (.fail e)
  | load {w : Nat} {k k' : Flags → Prog α} (h : ∀ v v', v w = v' w → Alike (k v) (k' v')) : Alike (.load w k) (.load w k')
  | store {w : Nat} {v v' : Flags} {k k' : Prog α} (hv : v w = v' w) (h : Alike k k') : Alike (.store w v k) (.store w v' k')
  | barrier {k k' : Prog α} (h : Alike k k') : Alike (.barrier k) (.barrier k')

namespace Prog

theorem Alike.bind {p p' : Prog α} {f f' : α → Prog β} (h : p.Alike p') (hf : ∀ a, (f a).Alike (f' a)) : (p.bind f).Alike (p'.bind f') := by
  induction h with
  | ret a => exact hf a
  | fail e => exact .fail e
  | load h ih => exact .load fun v v' hv => ih v v' hv
  | store hv h ih => exact .store hv ih
  | barrier h ih => exact .barrier ih

theorem alike_lift (m : M α) : (lift m).Alike (lift m) := by
  cases m
  · exact .fail _
  · exact .ret _

theorem Alike.pfor {ι σ : Type} {fuel : Nat} {i : ι} {cond : ι → Bool} {step : ι → ι} {body : ι → σ → Prog (σ × Bool)} {a : σ}
    (h : ∀ i a, (body i a).Alike (body i a)) : (SP.pfor fuel i cond step body a).Alike (SP.pfor fuel i cond step body a) := by
  induction fuel generalizing i a with
  | zero =>
    unfold SP.pfor
    split
    · exact .fail _
    · exact .ret _
  | succ fuel ih =>
    unfold SP.pfor
    split
    · refine (h i a).bind fun r => ?_
      split
      · exact .ret _
      · exact ih
    · exact .ret _

/-- The program stores the word before it loads the word or returns. -/
def Owns (w : Nat) : Prog α → Prop
  | .ret _ => False
  | .fail _ => True
  | .load u k => u ≠ w ∧ ∀ v, (k v).Owns w
  | .store u _ k => u = w ∨ k.Owns w
  | .barrier k => k.Owns w

end Prog

/-! ## Executions -/

/-- Values of the word `w` are the same, the first of them only if `¬ W w`. -/
def SameValues (W : Nat → Prop) (w : Nat) (l l' : List Flags) : Prop :=
  l.length = l'.length ∧ ∀ t v v', l[t]? = some v → l'[t]? = some v' → (W w → 0 < t) → v w = v' w

/-- Executions that differ in initial contents of words of `W`. -/
structure SamePools (W : Nat → Prop) (n : Nat) (P P' : Pool α) : Prop where
  prog : ∀ i, (P.prog i).Alike (P'.prog i)
  seen : P'.seen = P.seen
  mem : ∀ w, SameValues W w (P.mem w) (P'.mem w)
  own : ∀ i w, i < n → W w → 0 < P.seen i w ∨ (P.prog i).Owns w
  known : ∀ i w, i < n → P.seen i w < (P.mem w).length

theorem Prog.Alike.load_inv {w : Nat} {k : Flags → Prog α} {p : Prog α} (h : (Prog.load w k).Alike p) :
    ∃ k', p = .load w k' ∧ ∀ v v', v w = v' w → (k v).Alike (k' v') := by
  cases h with
  | load h => exact ⟨_, rfl, h⟩

theorem Prog.Alike.store_inv {w : Nat} {v : Flags} {k p : Prog α} (h : (Prog.store w v k).Alike p) :
    ∃ v' k', p = .store w v' k' ∧ v w = v' w ∧ k.Alike k' := by
  cases h with
  | store hv h => exact ⟨_, _, rfl, hv, h⟩

theorem Prog.Alike.barrier_inv {k p : Prog α} (h : (Prog.barrier k).Alike p) : ∃ k', p = .barrier k' ∧ k.Alike k' := by
  cases h with
  | barrier h => exact ⟨_, rfl, h⟩

theorem Prog.Alike.ret_inv {a : α} {p : Prog α} (h : (Prog.ret a).Alike p) : p = .ret a := by
  cases h
  rfl

theorem Prog.Alike.fail_inv {e : Err} {p : Prog α} (h : (Prog.fail e).Alike p) : p = .fail e := by
  cases h
  rfl

variable {W : Nat → Prop} {n : Nat} {group : Nat → Nat}

theorem Step.samePools {P Q P' : Pool α} (h : Step false group n P Q) (hs : SamePools W n P P') :
    ∃ Q', Step false group n P' Q' ∧ SamePools W n Q Q' := by
  cases h with
  | @load i w t k v hi hp hv ht hf =>
    have hal := hs.prog i
    rw [hp] at hal
    obtain ⟨k', hp', hk⟩ := hal.load_inv
    obtain ⟨hlen, hval⟩ := hs.mem w
    have hlt : t < (P'.mem w).length := by
      rw [← hlen]
      exact (List.getElem?_eq_some_iff.1 hv).1
    have hv' : (P'.mem w)[t]? = some (P'.mem w)[t] := List.getElem?_eq_getElem hlt
    have hpos : W w → 0 < t := by
      intro hw
      rcases hs.own i w hi hw with h | h
      · omega
      · rw [hp] at h
        exact absurd rfl h.1
    refine ⟨_, Step.load hi hp' hv' (by rw [hs.seen]; exact ht) (by simp), ⟨fun j => ?_, ?_, hs.mem, fun j u hj hu => ?_, fun j u hj => ?_⟩⟩
    · by_cases hji : j = i
      · subst hji
        simpa using hk _ _ (hval t _ _ hv hv' hpos)
      · simpa [setAt_ne _ _ hji] using hs.prog j
    · simp only [hs.seen]
    · by_cases hji : j = i
      · subst hji
        by_cases huw : u = w
        · subst huw
          left
          simpa using hpos hu
        · have := hs.own j u hj hu
          rw [hp] at this
          simp only [setAt_self, setAt_ne _ _ huw]
          exact this.imp id fun h => h.2 v
      · simpa [setAt_ne _ _ hji] using hs.own j u hj hu
    · by_cases hji : j = i
      · subst hji
        by_cases huw : u = w
        · subst huw
          simpa [hlen] using hlt
        · simpa [setAt_ne _ _ huw] using hs.known j u hj
      · simpa [setAt_ne _ _ hji] using hs.known j u hj
  | @store i w k v hi hp =>
    have hal := hs.prog i
    rw [hp] at hal
    obtain ⟨v', k', hp', hvv, hk⟩ := hal.store_inv
    obtain ⟨hlen, hval⟩ := hs.mem w
    have hpos := hs.known i w hi
    refine ⟨_, Step.store hi hp', ⟨fun j => ?_, ?_, fun u => ?_, fun j u hj hu => ?_, fun j u hj => ?_⟩⟩
    · by_cases hji : j = i
      · subst hji
        simpa using hk
      · simpa [setAt_ne _ _ hji] using hs.prog j
    · simp only [hs.seen, hlen]
    · by_cases huw : u = w
      · subst huw
        simp only [setAt_self]
        refine ⟨by simp [hlen], fun t a b ha hb hw => ?_⟩
        rcases Nat.lt_or_ge t (P.mem u).length with h | h
        · rw [List.getElem?_append_left h] at ha
          rw [List.getElem?_append_left (hlen ▸ h)] at hb
          exact hval t a b ha hb hw
        · rw [List.getElem?_append_right h] at ha
          rw [List.getElem?_append_right (hlen ▸ h)] at hb
          have ha' := (List.getElem?_eq_some_iff.1 ha).1
          simp only [List.length_singleton] at ha'
          have h0 : t - (P.mem u).length = 0 := by omega
          rw [h0] at ha
          rw [← hlen, h0] at hb
          cases ha
          cases hb
          exact hvv
      · simpa [setAt_ne _ _ huw] using hs.mem u
    · by_cases hji : j = i
      · subst hji
        by_cases huw : u = w
        · subst huw
          left
          simp only [setAt_self]
          omega
        · have := hs.own j u hj hu
          rw [hp] at this
          simp only [setAt_self, setAt_ne _ _ huw]
          exact this.imp id fun h => h.resolve_left (Ne.symm huw)
      · simpa [setAt_ne _ _ hji] using hs.own j u hj hu
    · by_cases huw : u = w
      · subst huw
        by_cases hji : j = i
        · subst hji
          simp
        · have := hs.known j u hj
          simp only [setAt_ne _ _ hji, setAt_self, List.length_append, List.length_singleton]
          omega
      · by_cases hji : j = i
        · subst hji
          simpa [setAt_ne _ _ huw] using hs.known j u hj
        · simpa [setAt_ne _ _ huw, setAt_ne _ _ hji] using hs.known j u hj
  | @barrier γ k seen hne hp hle hex hout =>
    have hk : ∀ i, ∃ k', i < n → group i = γ → P'.prog i = .barrier k' ∧ (k i).Alike k' := by
      intro i
      by_cases hg : i < n ∧ group i = γ
      · have hal := hs.prog i
        rw [hp i hg.1 hg.2] at hal
        obtain ⟨k', h1, h2⟩ := hal.barrier_inv
        exact ⟨k', fun _ _ => ⟨h1, h2⟩⟩
      · exact ⟨P'.prog i, fun h1 h2 => absurd ⟨h1, h2⟩ hg⟩
    choose k' hk' using hk
    refine ⟨_, Step.barrier (k := k') (seen := seen) hne (fun i hi hg => (hk' i hi hg).1) (by rw [hs.seen]; exact hle) (by rw [hs.seen]; exact hex)
      (by rw [hs.seen]; exact hout), ⟨fun j => ?_, rfl, hs.mem, fun j u hj hu => ?_, fun j u hj => ?_⟩⟩
    · by_cases hg : j < n ∧ group j = γ
      · simpa [hg] using (hk' j hg.1 hg.2).2
      · simpa [hg] using hs.prog j
    · by_cases hg : j < n ∧ group j = γ
      · have := hs.own j u hj hu
        rw [hp j hg.1 hg.2] at this
        simp only [hg, and_self, if_true]
        rcases this with h | h
        · left
          exact Nat.lt_of_lt_of_le h (hle j j u hj hg.2 hj hg.2)
        · exact .inr h
      · simpa [hg, hout j hg] using hs.own j u hj hu
    · by_cases hg : j < n ∧ group j = γ
      · obtain ⟨i, hi, hgi, e⟩ := hex j u hj hg.2
        show seen j u < _
        rw [e]
        exact hs.known i u hi
      · show seen j u < _
        rw [hout j hg]
        exact hs.known j u hj

theorem Steps.samePools {P Q P' : Pool α} (h : Steps false group n P Q) (hs : SamePools W n P P') :
    ∃ Q', Steps false group n P' Q' ∧ SamePools W n Q Q' := by
  induction h with
  | refl => exact ⟨P', .refl _, hs⟩
  | step _ h' ih =>
    obtain ⟨Q', h1, h2⟩ := ih
    obtain ⟨R', h3, h4⟩ := h'.samePools h2
    exact ⟨R', h1.step h3, h4⟩

/-! ## Kernels -/

theorem rdFlag_alike (size : Nat) (i : UInt64) : (Par.rdFlag 1 size i).Alike (Par.rdFlag 1 size i) := by
  unfold Par.rdFlag
  split
  · refine .load fun v v' h => ?_
    rw [Nat.div_one] at h
    rw [h]
    exact .ret _
  · exact .fail _

theorem wrFlag_alike (size : Nat) (i : UInt64) (b : Bool) : (Par.wrFlag 1 size i b).Alike (Par.wrFlag 1 size i b) := by
  unfold Par.wrFlag
  split
  · refine .load fun v v' _ => .store ?_ (.ret ())
    simp
  · exact .fail _

theorem isEdgeAvailable_alike (c : ConstraintGraph F) (edge : Edge) : (Par.isEdgeAvailable 1 c edge).Alike (Par.isEdgeAvailable 1 c edge) := by
  unfold Par.isEdgeAvailable
  refine (Prog.alike_lift _).bind fun p => (Prog.alike_lift _).bind fun l => ?_
  split
  · exact .ret _
  · refine (rdFlag_alike _ _).bind fun b => ?_
    split
    · exact .ret _
    · refine (rdFlag_alike _ _).bind fun b => ?_
      split <;> exact .ret _

theorem shouldRemoveNode_alike (c : ConstraintGraph F) (node : Node) : (Par.shouldRemoveNode 1 c node).Alike (Par.shouldRemoveNode 1 c node) := by
  unfold Par.shouldRemoveNode
  refine (rdFlag_alike _ _).bind fun b => ?_
  split
  · exact .ret _
  · refine Prog.Alike.pfor fun k a => ?_
    split
    · exact .ret _
    · refine Prog.Alike.bind ?_ fun b => ?_
      · unfold Par.edgeFound
        refine Prog.Alike.pfor fun d a => (isEdgeAvailable_alike c _).bind fun b => ?_
        split <;> exact .ret _
      · split <;> exact .ret _

theorem cspProcessPixel_alike (c : ConstraintGraph F) (pixel : Pixel) : (Par.cspProcessPixel 1 c pixel).Alike (Par.cspProcessPixel 1 c pixel) := by
  unfold Par.cspProcessPixel
  refine Prog.Alike.pfor fun d a => (shouldRemoveNode_alike c _).bind fun b => ?_
  split
  · exact (wrFlag_alike _ _ _).bind fun _ => .ret _
  · exact .ret _

theorem rounds_alike (c : ConstraintGraph F) {mark : Prog Unit} (hm : mark.Alike mark) (pixel : Pixel) (fuel : Nat) :
    (rounds c mark pixel fuel).Alike (rounds c mark pixel fuel) := by
  induction fuel with
  | zero => exact .fail _
  | succ fuel ih =>
    rw [rounds_succ]
    refine .store rfl (.barrier ?_)
    unfold mid
    refine (cspProcessPixel_alike c pixel).bind fun ch => Prog.Alike.bind ?_ fun _ => ?_
    · split
      · exact hm
      · exact .ret _
    · refine .barrier (.load fun v v' h => ?_)
      simp only [prog_ret_bind, h]
      split
      · exact ih
      · exact .ret _

theorem wrChanged_alike (c : ConstraintGraph F) (k : Nat) (b : Bool) : (wrChanged c k b).Alike (wrChanged c k b) := .store rfl (.ret ())

theorem cspIteration_alike (c : ConstraintGraph F) (i : UInt64) : (cspIteration c i).Alike (cspIteration c i) :=
  .store rfl (.store rfl (rounds_alike c (.store rfl (.store rfl (.ret ()))) _ _))

theorem cspIterationCuda_alike (c : ConstraintGraph F) (i : UInt64) : (cspIterationCuda c i).Alike (cspIterationCuda c i) :=
  rounds_alike c (wrChanged_alike c 0 true) _ _

theorem cspIteration_owns (c : ConstraintGraph F) (i : UInt64) {k : Nat} (hk : k < 2) : (cspIteration c i).Owns (changedWord c k) := by
  match k, hk with
  | 0, _ => exact .inl rfl
  | 1, _ => exact .inr (.inl rfl)

theorem cspIterationCuda_owns (c : ConstraintGraph F) (i : UInt64) : (cspIterationCuda c i).Owns (changedWord c 0) := .inl rfl

/-! ### Kernels of CUDA with 32 bits -/
section
variable (c : ConstraintGraph D)

theorem rdFlag_alike32 (size : Nat) (i : UInt32) : (Cuda.rdFlag size i).Alike (Cuda.rdFlag size i) := by
  unfold Cuda.rdFlag
  split
  · refine .load fun v v' h => ?_
    rw [h]
    exact .ret _
  · exact .fail _

theorem wrFlag_alike32 (size : Nat) (i : UInt32) (b : Bool) : (Cuda.wrFlag size i b).Alike (Cuda.wrFlag size i b) := by
  unfold Cuda.wrFlag
  split
  · refine .load fun v v' _ => .store ?_ (.ret ())
    simp
  · exact .fail _

theorem isEdgeAvailable_alike32 (edge : Cuda.Edge) : (Cuda.isEdgeAvailable c edge).Alike (Cuda.isEdgeAvailable c edge) := by
  unfold Cuda.isEdgeAvailable
  refine (Prog.alike_lift _).bind fun p => (Prog.alike_lift _).bind fun l => ?_
  split
  · exact .ret _
  · refine (rdFlag_alike32 _ _).bind fun b => ?_
    split
    · exact .ret _
    · refine (rdFlag_alike32 _ _).bind fun b => ?_
      split <;> exact .ret _

theorem shouldRemoveNode_alike32 (node : Cuda.Node) : (Cuda.shouldRemoveNode c node).Alike (Cuda.shouldRemoveNode c node) := by
  unfold Cuda.shouldRemoveNode
  refine (rdFlag_alike32 _ _).bind fun b => ?_
  split
  · exact .ret _
  · refine Prog.Alike.pfor fun k a => ?_
    split
    · exact .ret _
    · refine Prog.Alike.bind ?_ fun b => ?_
      · unfold Cuda.edgeFound
        refine Prog.Alike.pfor fun d a => (isEdgeAvailable_alike32 c _).bind fun b => ?_
        split <;> exact .ret _
      · split <;> exact .ret _

theorem cspProcessPixel_alike32 (pixel : Cuda.Pixel) : (Cuda.cspProcessPixel c pixel).Alike (Cuda.cspProcessPixel c pixel) := by
  unfold Cuda.cspProcessPixel
  refine Prog.Alike.pfor fun d a => (shouldRemoveNode_alike32 c _).bind fun b => ?_
  split
  · exact (wrFlag_alike32 _ _ _).bind fun _ => .ret _
  · exact .ret _

theorem rounds_alike32 (pixel : Cuda.Pixel) (fuel : Nat) : (Cuda.rounds c pixel fuel).Alike (Cuda.rounds c pixel fuel) := by
  induction fuel with
  | zero => exact .fail _
  | succ fuel ih =>
    refine .store rfl (.barrier ((cspProcessPixel_alike32 c pixel).bind fun ch => Prog.Alike.bind ?_ fun _ => ?_))
    · split
      · exact .store rfl (.ret ())
      · exact .ret _
    · refine .barrier (.load fun v v' h => ?_)
      simp only [prog_ret_bind, h]
      split
      · exact ih
      · exact .ret _

theorem cspIteration_alike32 (i : UInt64) : (Cuda.cspIteration c i).Alike (Cuda.cspIteration c i) := rounds_alike32 c _ _

theorem cspIteration_owns32 (i : UInt64) : (Cuda.cspIteration c i).Owns (changedWord c 0) := .inl rfl

end

/-! ## Launches -/

/-- Outcomes of a launch do not depend on `m` cells that each work item writes first. -/
theorem outcome_garbage {kernel : Kernel F} {allowed : (Nat → Nat) → Prop} {d : Device F} {m : Nat} (hal : ∀ i, (kernel d.graph i).Alike (kernel d.graph i))
    (hown : ∀ i k, k < m → (kernel d.graph i).Owns (changedWord d.graph k)) (hitems : 0 < d.items) {ch : Nat → Bool}
    (hch : ∀ k, m ≤ k → ch k = d.changed k) {r : M (Device F)} (h : LaunchOutcome kernel allowed d r) :
    LaunchOutcome kernel allowed { d with changed := ch } r := by
  have hstart : SamePools (fun w => ∃ k, k < m ∧ w = changedWord d.graph k) d.items (d.launch kernel) (({ d with changed := ch } : Device F).launch kernel) := by
    refine ⟨fun i => hal _, rfl, fun w => ⟨rfl, fun t v v' hv hv' hw => ?_⟩, fun i w _ hw => ?_, fun i w _ => ?_⟩
    · have hv : [d.flags][t]? = some v := hv
      have hv' : [({ d with changed := ch } : Device F).flags][t]? = some v' := hv'
      obtain rfl : t = 0 := by
        have := (List.getElem?_eq_some_iff.1 hv).1
        simp only [List.length_singleton] at this
        omega
      cases hv
      cases hv'
      unfold Device.flags
      by_cases hlt : w < d.graph.nodesAvailability.size
      · simp only [if_pos hlt]
      · simp only [if_neg hlt]
        refine (hch _ (Nat.le_of_not_lt fun hk => ?_)).symm
        exact absurd (hw ⟨_, hk, (Nat.add_sub_cancel' (Nat.le_of_not_lt hlt)).symm⟩) (Nat.lt_irrefl 0)
    · obtain ⟨k, hk, rfl⟩ := hw
      exact .inr (hown _ k hk)
    · exact Nat.one_pos
  cases r with
  | ok d' =>
    obtain ⟨group, ha, P, hP, hret, rfl⟩ := h
    obtain ⟨P', hP', hs⟩ := hP.samePools hstart
    refine ⟨group, ha, P', hP', fun i hi => ?_, ?_⟩
    · have := hs.prog i
      rw [hret i hi] at this
      exact this.ret_inv
    · have hcur : ∀ w, current 1 P.mem w = current 1 P'.mem w := by
        intro w
        obtain ⟨hlen, hval⟩ := hs.mem w
        have hpos : 0 < (P.mem w).length := Nat.lt_of_le_of_lt (Nat.zero_le _) (hs.known 0 w hitems)
        have hpos' : (∃ k, k < m ∧ w = changedWord d.graph k) → 0 < (P.mem w).length - 1 := by
          intro hw
          rcases hs.own 0 w hitems hw with h | h
          · have := hs.known 0 w hitems
            omega
          · rw [hret 0 hitems] at h
            exact h.elim
        have last : ∀ (l : List Flags), 0 < l.length → l[l.length - 1]? = some (l.getLastD fun _ => false) := by
          intro l hl
          rw [← List.getLast?_eq_getElem?]
          cases l with
          | nil => cases hl
          | cons a l => rw [List.getLastD_eq_getLast?, List.getLast?_eq_some_getLast (by simp)]; rfl
        unfold current
        rw [Nat.div_one]
        exact hval _ _ _ (last _ hpos) (by rw [hlen]; exact last _ (hlen ▸ hpos)) hpos'
      unfold Device.withFlags
      rw [funext hcur]
  | error e =>
    obtain ⟨group, P, ha, hP, hfail⟩ := h
    obtain ⟨P', hP', hs⟩ := hP.samePools hstart
    refine ⟨group, P', ha, hP', hfail.imp ?_ ?_⟩
    · rintro ⟨i, hi, hp⟩
      have := hs.prog i
      rw [hp] at this
      exact ⟨i, hi, this.fail_inv⟩
    · rintro ⟨rfl, i, j, k, hi, hj, hg, hp, hp'⟩
      have h1 := hs.prog i
      have h2 := hs.prog j
      rw [hp] at h1
      rw [hp'] at h2
      obtain ⟨k', e1, -⟩ := h1.barrier_inv
      exact ⟨rfl, i, j, k', hi, hj, hg, e1, h2.ret_inv⟩

/-- **C122**: what is in `changed` before a launch of the OpenCL kernel does not matter. -/
theorem C122_launch_cl {allowed : (Nat → Nat) → Prop} {d : Device F} (hitems : 0 < d.items) {ch : Nat → Bool} (hch : ∀ k, 2 ≤ k → ch k = d.changed k)
    (r : M (Device F)) : LaunchOutcome cspIteration allowed { d with changed := ch } r ↔ LaunchOutcome cspIteration allowed d r :=
  ⟨fun h => outcome_garbage (m := 2) (d := { d with changed := ch }) (cspIteration_alike _) (fun i _ hk => cspIteration_owns _ i hk) hitems (fun k hk => (hch k hk).symm) h,
    outcome_garbage (m := 2) (cspIteration_alike _) (fun i _ hk => cspIteration_owns _ i hk) hitems hch⟩

/-- **C122**: what is in `changed` before a launch of the CUDA kernel does not matter. -/
theorem C122_launch_cuda {allowed : (Nat → Nat) → Prop} {d : Device F} (hitems : 0 < d.items) (garbage : Bool) (r : M (Device F)) :
    LaunchOutcome cspIterationCuda allowed { d with changed := setAt d.changed 0 garbage } r ↔ LaunchOutcome cspIterationCuda allowed d r := by
  have hown : ∀ (c : ConstraintGraph F) (i : UInt64) (k : Nat), k < 1 → (cspIterationCuda c i).Owns (changedWord c k) := by
    intro c i k hk
    obtain rfl : k = 0 := by omega
    exact cspIterationCuda_owns c i
  have hch : ∀ k, 1 ≤ k → setAt d.changed 0 garbage k = d.changed k := fun k hk => setAt_ne _ _ (by omega)
  exact ⟨fun h => outcome_garbage (m := 1) (d := { d with changed := setAt d.changed 0 garbage }) (cspIterationCuda_alike _) (hown _) hitems (fun k hk => (hch k hk).symm) h,
    outcome_garbage (m := 1) (cspIterationCuda_alike _) (hown _) hitems hch⟩

/-- **C122**: the same for the CUDA kernel with 32 bits, whether or not the sizes fit. -/
theorem C122_launch_32 {allowed : (Nat → Nat) → Prop} {d : Device F} (hitems : 0 < d.items) (garbage : Bool) (r : M (Device F)) :
    LaunchOutcome Cuda.cspIteration allowed { d with changed := setAt d.changed 0 garbage } r ↔ LaunchOutcome Cuda.cspIteration allowed d r := by
  have hown : ∀ (c : ConstraintGraph F) (i : UInt64) (k : Nat), k < 1 → (Cuda.cspIteration c i).Owns (changedWord c k) := by
    intro c i k hk
    obtain rfl : k = 0 := by omega
    exact cspIteration_owns32 c i
  have hch : ∀ k, 1 ≤ k → setAt d.changed 0 garbage k = d.changed k := fun k hk => setAt_ne _ _ (by omega)
  exact ⟨fun h => outcome_garbage (m := 1) (d := { d with changed := setAt d.changed 0 garbage }) (cspIteration_alike32 _) (hown _) hitems (fun k hk => (hch k hk).symm) h,
    outcome_garbage (m := 1) (cspIteration_alike32 _) (hown _) hitems hch⟩

/-! ## The host -/

/-- The host does not change the problem when it chooses a node. -/
theorem chooseBestNode_problem (c : ConstraintGraph D) (pixel : Pixel) {r : ConstraintGraph D × Bool} (h : chooseBestNode c pixel = .ok r) :
    r.1.disparityGraph = c.disparityGraph := by
  have key : Sim (fun a b : ConstraintGraph D × Bool => a = b ∧ a.1.disparityGraph = c.disparityGraph) (chooseBestNode c pixel) (chooseBestNode c pixel) := by
    unfold chooseBestNode
    refine Sim.bind_same fun m => cfor_sim_same (R := fun a b : ConstraintGraph D × Bool => a = b ∧ a.1.disparityGraph = c.disparityGraph) ?_ _ _ _ _ ⟨rfl, rfl⟩
    rintro d s _ - ⟨rfl, hs⟩
    refine Sim.bind_same fun b => ?_
    split
    · exact ⟨rfl, rfl, hs⟩
    · refine Sim.bind_same fun p => ?_
      split
      · unfold makeNodeUnavailable
        cases wr s.1.nodesAvailability (nodeIndex s.1.disparityGraph { pixel := pixel, disparity := d }) false with
        | error e => exact Sim.error e
        | ok a => exact ⟨rfl, rfl, hs⟩
      · exact ⟨rfl, rfl, hs⟩
  rw [h] at key
  exact key.2

/-- The launcher for which the first launch has `garbage` in `changed[0]`. -/
def Launcher.after (garbage : Bool) (launch : Launcher D) : Launcher D := fun n d =>
  if n = 0 ∧ 0 < d.items then launch n { d with changed := setAt d.changed 0 garbage } else launch n d

theorem Launcher.Possible.after {allowed : (Nat → Nat) → Prop} {launch : Launcher D} (h : launch.Possible cspIterationCuda allowed) (garbage : Bool) :
    (launch.after garbage).Possible cspIterationCuda allowed := by
  intro n d
  unfold Launcher.after
  split
  · rename_i hn
    exact (C122_launch_cuda hn.2 garbage _).1 (h n _)
  · exact h n d

/-- The same with garbage as with a launcher that begins with it. -/
theorem cuda_after (launch : Launcher D) (garbage : Bool) {graph : ConstraintGraph D} (hitems : 0 < graph.disparityGraph.right.data.size) :
    cspSolutionCudaFrom garbage launch graph = cspSolutionCuda (launch.after garbage) graph := by
  let R : Device D × Nat → Device D × Nat → Prop := fun s t => s.2 = t.2 ∧ s.1.graph = t.1.graph ∧
    (s.2 = 0 → s.1.graph.disparityGraph = graph.disparityGraph ∧ s.1.changed = setAt t.1.changed 0 garbage) ∧ (s.2 ≠ 0 → s.1 = t.1)
  have hloop : Sim (fun a b : Device D × Nat => a.1.graph = b.1.graph)
      (cfor graph.disparityGraph.right.width.toNat 0 (fun x => decide (x < graph.disparityGraph.right.width)) inc
        (fun x (s : Device D × Nat) => do
          let s ← cfor graph.disparityGraph.right.height.toNat 0 (fun y => decide (y < graph.disparityGraph.right.height)) inc
            (fun y (s : Device D × Nat) => do
              let (g, _) ← chooseBestNode s.1.graph { x := x, y := y }
              let d ← launch s.2 { s.1 with graph := g }
              return ((d, s.2 + 1), false)) s
          return (s, false))
        ({ graph := graph, changed := setAt (fun _ => false) 0 garbage }, 0))
      (cfor graph.disparityGraph.right.width.toNat 0 (fun x => decide (x < graph.disparityGraph.right.width)) inc
        (fun x (s : Device D × Nat) => do
          let s ← cfor graph.disparityGraph.right.height.toNat 0 (fun y => decide (y < graph.disparityGraph.right.height)) inc
            (fun y (s : Device D × Nat) => do
              let (g, _) ← chooseBestNode s.1.graph { x := x, y := y }
              let d ← launch.after garbage s.2 { s.1 with graph := g }
              return ((d, s.2 + 1), false)) s
          return (s, false))
        ({ graph := graph, changed := fun _ => false }, 0)) := by
    have hfirst : R ({ graph := graph, changed := setAt (fun _ => false) 0 garbage }, 0) ({ graph := graph, changed := fun _ => false }, 0) :=
      ⟨rfl, rfl, fun _ => ⟨rfl, rfl⟩, fun h => absurd rfl h⟩
    refine (cfor_sim_same (R := R) (fun x s t _ hst => ?_) _ _ _ _ hfirst).mono fun a b h => h.2.1
    refine Sim.bind (cfor_sim_same (R := R) (fun y s t _ hst => ?_) _ _ _ _ hst) fun a b hab => ⟨rfl, hab⟩
    obtain ⟨h1, h2, h3, h4⟩ := hst
    rw [← h2]
    cases hb : chooseBestNode s.1.graph { x := x, y := y } with
    | error e => exact Sim.error e
    | ok r =>
      have hr := chooseBestNode_problem _ _ hb
      have hsame : launch s.2 { s.1 with graph := r.1 } = launch.after garbage t.2 { t.1 with graph := r.1 } := by
        unfold Launcher.after
        rw [← h1]
        by_cases h0 : s.2 = 0
        · have hi : 0 < ({ t.1 with graph := r.1 } : Device D).items := by
            show 0 < r.1.disparityGraph.right.data.size
            rw [hr, (h3 h0).1]
            exact hitems
          rw [if_pos ⟨h0, hi⟩]
          show launch s.2 ⟨r.1, s.1.changed⟩ = launch s.2 ⟨r.1, setAt t.1.changed 0 garbage⟩
          rw [(h3 h0).2]
        · rw [if_neg fun h => h0 h.1, h4 h0]
      show Sim _ (launch s.2 { s.1 with graph := r.1 } >>= fun d => pure ((d, s.2 + 1), false))
        (launch.after garbage t.2 { t.1 with graph := r.1 } >>= fun d => pure ((d, t.2 + 1), false))
      rw [hsame, h1]
      exact Sim.bind_same fun d => ⟨rfl, rfl, rfl, fun h => absurd h (Nat.succ_ne_zero _), fun _ => rfl⟩
  have key : Sim Eq (cspSolutionCudaFrom garbage launch graph) (cspSolutionCuda (launch.after garbage) graph) := by
    unfold cspSolutionCudaFrom cspSolutionCuda
    exact Sim.bind hloop fun a b hab => hab
  revert key
  cases cspSolutionCudaFrom garbage launch graph <;> cases cspSolutionCuda (launch.after garbage) graph
  · rintro rfl; rfl
  · exact False.elim
  · exact False.elim
  · rintro rfl; rfl

/-- The kernel that chooses a node does not change the problem either. -/
theorem chooseBestNode_problem32 (c : ConstraintGraph D) (pixel : Cuda.Pixel) {r : ConstraintGraph D} (h : Cuda.chooseBestNode c pixel = .ok r) :
    r.disparityGraph = c.disparityGraph := by
  have key : Sim (fun a b : ConstraintGraph D => a = b ∧ a.disparityGraph = c.disparityGraph) (Cuda.chooseBestNode c pixel) (Cuda.chooseBestNode c pixel) := by
    unfold Cuda.chooseBestNode
    refine Sim.bind_same fun m => Sim.bind (R := fun a b : ConstraintGraph D × Bool => a = b ∧ a.1.disparityGraph = c.disparityGraph) ?_ ?_
    · refine cfor_sim_same (R := fun a b : ConstraintGraph D × Bool => a = b ∧ a.1.disparityGraph = c.disparityGraph) ?_ _ _ _ _ ⟨rfl, rfl⟩
      rintro d s _ - ⟨rfl, hs⟩
      refine Sim.bind_same fun b => ?_
      split
      · exact ⟨rfl, rfl, hs⟩
      · refine Sim.bind_same fun p => ?_
        split
        · refine Sim.bind_same fun a => ?_
          exact ⟨rfl, rfl, hs⟩
        · exact ⟨rfl, rfl, hs⟩
    · rintro a _ ⟨rfl, ha⟩
      exact ⟨rfl, ha⟩
  rw [h] at key
  exact key.2

theorem Launcher.Possible.after32 {allowed : (Nat → Nat) → Prop} {launch : Launcher D} (h : launch.Possible Cuda.cspIteration allowed) (garbage : Bool) :
    (launch.after garbage).Possible Cuda.cspIteration allowed := by
  intro n d
  unfold Launcher.after
  split
  · rename_i hn
    exact (C122_launch_32 hn.2 garbage _).1 (h n _)
  · exact h n d

/-- The same with kernels of 32 bits. -/
theorem cuda_after32 (launch : Launcher D) (garbage : Bool) {graph : ConstraintGraph D} (hitems : 0 < graph.disparityGraph.right.data.size) :
    Cuda.cspSolutionFrom garbage launch graph = Cuda.cspSolution (launch.after garbage) graph := by
  let R : Device D × Nat → Device D × Nat → Prop := fun s t => s.2 = t.2 ∧ s.1.graph = t.1.graph ∧
    (s.2 = 0 → s.1.graph.disparityGraph = graph.disparityGraph ∧ s.1.changed = setAt t.1.changed 0 garbage) ∧ (s.2 ≠ 0 → s.1 = t.1)
  have hloop : Sim (fun a b : Device D × Nat => a.1.graph = b.1.graph)
      (cfor graph.disparityGraph.right.width.toNat 0 (fun x => decide (x < graph.disparityGraph.right.width)) inc
        (fun x (s : Device D × Nat) => do
          let s ← cfor graph.disparityGraph.right.height.toNat 0 (fun y => decide (y < graph.disparityGraph.right.height)) inc
            (fun y (s : Device D × Nat) => do
              let g ← Cuda.chooseBestNode s.1.graph { x := x.toUInt32, y := y.toUInt32 }
              let d ← launch s.2 { s.1 with graph := g }
              return ((d, s.2 + 1), false)) s
          return (s, false))
        ({ graph := graph, changed := setAt (fun _ => false) 0 garbage }, 0))
      (cfor graph.disparityGraph.right.width.toNat 0 (fun x => decide (x < graph.disparityGraph.right.width)) inc
        (fun x (s : Device D × Nat) => do
          let s ← cfor graph.disparityGraph.right.height.toNat 0 (fun y => decide (y < graph.disparityGraph.right.height)) inc
            (fun y (s : Device D × Nat) => do
              let g ← Cuda.chooseBestNode s.1.graph { x := x.toUInt32, y := y.toUInt32 }
              let d ← launch.after garbage s.2 { s.1 with graph := g }
              return ((d, s.2 + 1), false)) s
          return (s, false))
        ({ graph := graph, changed := fun _ => false }, 0)) := by
    have hfirst : R ({ graph := graph, changed := setAt (fun _ => false) 0 garbage }, 0) ({ graph := graph, changed := fun _ => false }, 0) :=
      ⟨rfl, rfl, fun _ => ⟨rfl, rfl⟩, fun h => absurd rfl h⟩
    refine (cfor_sim_same (R := R) (fun x s t _ hst => ?_) _ _ _ _ hfirst).mono fun a b h => h.2.1
    refine Sim.bind (cfor_sim_same (R := R) (fun y s t _ hst => ?_) _ _ _ _ hst) fun a b hab => ⟨rfl, hab⟩
    obtain ⟨h1, h2, h3, h4⟩ := hst
    rw [← h2]
    cases hb : Cuda.chooseBestNode s.1.graph { x := x.toUInt32, y := y.toUInt32 } with
    | error e => exact Sim.error e
    | ok r =>
      have hr := chooseBestNode_problem32 _ _ hb
      have hsame : launch s.2 { s.1 with graph := r } = launch.after garbage t.2 { t.1 with graph := r } := by
        unfold Launcher.after
        rw [← h1]
        by_cases h0 : s.2 = 0
        · have hi : 0 < ({ t.1 with graph := r } : Device D).items := by
            show 0 < r.disparityGraph.right.data.size
            rw [hr, (h3 h0).1]
            exact hitems
          rw [if_pos ⟨h0, hi⟩]
          show launch s.2 ⟨r, s.1.changed⟩ = launch s.2 ⟨r, setAt t.1.changed 0 garbage⟩
          rw [(h3 h0).2]
        · rw [if_neg fun h => h0 h.1, h4 h0]
      show Sim _ (launch s.2 { s.1 with graph := r } >>= fun d => pure ((d, s.2 + 1), false))
        (launch.after garbage t.2 { t.1 with graph := r } >>= fun d => pure ((d, t.2 + 1), false))
      rw [hsame, h1]
      exact Sim.bind_same fun d => ⟨rfl, rfl, rfl, fun h => absurd h (Nat.succ_ne_zero _), fun _ => rfl⟩
  have key : Sim Eq (Cuda.cspSolutionFrom garbage launch graph) (Cuda.cspSolution (launch.after garbage) graph) := by
    unfold Cuda.cspSolutionFrom Cuda.cspSolution
    exact Sim.bind hloop fun a b hab => hab
  revert key
  cases Cuda.cspSolutionFrom garbage launch graph <;> cases Cuda.cspSolution (launch.after garbage) graph
  · rintro rfl; rfl
  · exact False.elim
  · exact False.elim
  · rintro rfl; rfl

/-- **C122**: whatever there is in `changed` when it is allocated, an execution of `csp_solution_cuda` is also possible with zeros there. -/
theorem C122_cuda {allowed : (Nat → Nat) → Prop} {launch : Launcher D} (h : launch.Possible cspIterationCuda allowed) (garbage : Bool) {graph : ConstraintGraph D}
    (hitems : 0 < graph.disparityGraph.right.data.size) :
    ∃ launch' : Launcher D, launch'.Possible cspIterationCuda allowed ∧ cspSolutionCudaFrom garbage launch graph = cspSolutionCuda launch' graph :=
  ⟨launch.after garbage, h.after garbage, cuda_after launch garbage hitems⟩

/-- **C122**: the same for the function that finds the labeling; so whatever is proved of CUDA for all possible executions holds with any contents of the cell. -/
theorem C122_find {allowed : (Nat → Nat) → Prop} {launch : Launcher D} (h : launch.Possible cspIterationCuda allowed) (garbage : Bool) (conv : F → D)
    {graph : ConstraintGraph F} (hitems : 0 < graph.disparityGraph.right.data.size) :
    ∃ launch' : Launcher D, launch'.Possible cspIterationCuda allowed ∧ findLabelingCudaFrom garbage conv launch graph = findLabelingCuda conv launch' graph := by
  obtain ⟨launch', h1, h2⟩ := C122_cuda (graph := graph.onDevice conv) h garbage hitems
  refine ⟨launch', h1, ?_⟩
  unfold findLabelingCudaFrom findLabelingCuda
  rw [h2]

/-- **C122**: the same with kernels of 32 bits. -/
theorem C122_find_32 {allowed : (Nat → Nat) → Prop} {launch : Launcher D} (h : launch.Possible Cuda.cspIteration allowed) (garbage : Bool) (conv : F → D)
    {graph : ConstraintGraph F} (hitems : 0 < graph.disparityGraph.right.data.size) :
    ∃ launch' : Launcher D, launch'.Possible Cuda.cspIteration allowed ∧
      Cuda.findLabelingFrom garbage conv launch graph = Cuda.findLabeling conv launch' graph := by
  refine ⟨launch.after garbage, h.after32 garbage, ?_⟩
  unfold Cuda.findLabelingFrom Cuda.findLabeling
  rw [cuda_after32 (graph := graph.onDevice conv) launch garbage hitems]

/-! ## The program -/
section
variable {B : Nat} {jobs : UInt64} {world : World F} {conv : F → D} {allowed : (Nat → Nat) → Prop}

/-- Programs with functions of CUDA that do the same for graphs the program makes. -/
theorem program_other {find find' : ConstraintGraph F → M (ConstraintGraph F × Bool)} (hw : world.Reasonable jobs) (hruns : world.Runs B jobs)
    (hcuda : world.cuda = some find) (hsame : ∀ c : ConstraintGraph F, c.Valid → c.Proper → find' c = find c) (cl : CommandLine) :
    program { world with cuda := some find' } cl = program world cl := by
  cases cl with
  | repeated => rfl
  | wrong => rfl
  | parsed o =>
    unfold program
    dsimp only
    cases hout : o.outputImage <;> cases hleft : o.leftImage <;> cases hright : o.rightImage <;> try rfl
    rename_i output l r
    dsimp only
    rcases chooseParallelism_other (find' := find') hcuda o.parallel with h | ⟨h1, h2⟩
    · rw [h]
      rfl
    · rw [h1, h2]
      refine congrArg (handle [.cuda]) ?_
      unfold compute
      show (readGraph world o l r >>= _) = (readGraph world o l r >>= _)
      cases hg : readGraph world o l r with
      | error e => rfl
      | ok g =>
        obtain ⟨left, right, levels, cleanness, smoothness, k1, k2, k3, -, -, ha, hls, hrs, hsm, rfl⟩ := readGraph_ok hw hg
        rw [bind_ok, bind_ok]
        refine congrArg (· >>= _) ?_
        show Par.labeledMap world.solve (fun _ => find') _ = Par.labeledMap world.solve (fun _ => find) _
        unfold Par.labeledMap
        cases hsg : Par.solvedGraph world.solve (freshGraph left right levels cleanness smoothness) with
        | error e => rfl
        | ok s =>
          obtain ⟨c, n⟩ := s
          rw [bind_ok, bind_ok]
          have hhj : (freshGraph left right levels cleanness smoothness).h + jobs.toNat ≤ 18446744073709551616 := by
            have hj := hw.jobs_small
            have hpos : 0 < left.width.toNat := by have := ha.2.2.1; have := ha.2.2.2.1; omega
            have hsz := hls.size
            have : left.height.toNat ≤ left.data.size := by rw [hsz]; exact Nat.le_mul_of_pos_left _ hpos
            have e : (freshGraph left right levels cleanness smoothness).h = left.height.toNat := by
              show right.height.toNat = _
              rw [ha.2.2.2.2.2.1]
            omega
          obtain ⟨c1, c2, c3⟩ := solvedGraph_runs hruns (freshGraph_valid hls hrs ha (accepted_fits ha hls hsm)).1 hw.jobs_pos hhj hsg
          exact congrArg (· >>= _) (hsame c c1 c2)

/-- **C122**: the program does the same as if `changed` had been initialised, with launches that are possible. -/
theorem C122_program (hw : world.Reasonable jobs) (hruns : world.Runs B jobs) {launch : Launcher D} (h : launch.Possible cspIterationCuda allowed) (garbage : Bool)
    (hcuda : world.cuda = some (findLabelingCudaFrom garbage conv launch)) (cl : CommandLine) :
    ∃ launch' : Launcher D, launch'.Possible cspIterationCuda allowed ∧
      program { world with cuda := some (findLabelingCuda conv launch') } cl = program world cl := by
  refine ⟨launch.after garbage, h.after garbage, program_other hw hruns hcuda (fun c hc _ => ?_) cl⟩
  have hsize : 0 < c.disparityGraph.right.data.size := by
    rw [hc.graph.right_size]
    exact Nat.mul_pos hc.graph.width_pos hc.graph.height_pos
  unfold findLabelingCudaFrom findLabelingCuda
  rw [cuda_after (graph := c.onDevice conv) launch garbage hsize]

/-- **C122**: the same with kernels of 32 bits; here sizes need not fit. -/
theorem C122_program_32 (hw : world.Reasonable jobs) (hruns : world.Runs B jobs) {launch : Launcher D} (h : launch.Possible Cuda.cspIteration allowed) (garbage : Bool)
    (hcuda : world.cuda = some (Cuda.findLabelingFrom garbage conv launch)) (cl : CommandLine) :
    ∃ launch' : Launcher D, launch'.Possible Cuda.cspIteration allowed ∧
      program { world with cuda := some (Cuda.findLabeling conv launch') } cl = program world cl := by
  refine ⟨launch.after garbage, h.after32 garbage, program_other hw hruns hcuda (fun c hc _ => ?_) cl⟩
  have hsize : 0 < c.disparityGraph.right.data.size := by
    rw [hc.graph.right_size]
    exact Nat.mul_pos hc.graph.width_pos hc.graph.height_pos
  unfold Cuda.findLabelingFrom Cuda.findLabeling
  rw [cuda_after32 (graph := c.onDevice conv) launch garbage hsize]

end

/-! ## Non-vacuity -/

/-- An execution with 1 in `changed`. -/
example : 0 < bothSolved.disparityGraph.right.data.size ∧
    (Launcher.ofTurns (D := Int) cspIterationCuda (fun _ => 0) fun _ => together 8 3).Possible cspIterationCuda (· = fun _ => 0) ∧
    ending (mapOf (findLabelingCudaFrom true id (computed cspIterationCuda (fun _ => 0) fun _ => together 8 3)) bothSolved) = .inr [1, 2, 1, 0, 2, 2, 1, 0] :=
  ⟨by decide, Launcher.ofTurns_possible (allowed := (· = fun _ => 0)) rfl _, by decide +kernel⟩

/-- The same with kernels of 32 bits. -/
example : (Launcher.ofTurns (D := Int) Cuda.cspIteration (fun _ => 0) fun _ => together 8 3).Possible Cuda.cspIteration (· = fun _ => 0) ∧
    ending (mapOf (Cuda.findLabelingFrom true id (computed Cuda.cspIteration (fun _ => 0) fun _ => together 8 3)) bothSolved) = .inr [1, 2, 1, 0, 2, 2, 1, 0] :=
  ⟨Launcher.ofTurns_possible (allowed := (· = fun _ => 0)) rfl _, by decide +kernel⟩

/-- A kernel that does not write `changed` first: it makes a node unavailable if `changed` is not zero. -/
def careless : Kernel Int := fun c _ => (rdChanged c 0).bind fun b => if b then Par.wrFlag 1 c.nodesAvailability.size 0 false else .ret ()

/-- What the first flag becomes. -/
def firstFlag (garbage : Bool) : Option (Option (Option Bool)) :=
  (Device.outcome? careless id (oneByOne (List.range 8) 4) { graph := bothSolved, changed := setAt (fun _ => false) 0 garbage }).map
    fun r => r.toOption.map fun d => d.graph.nodesAvailability[0]?

/-- Contents of `changed` matter for other kernels. -/
example : firstFlag false = some (some (some true)) ∧ firstFlag true = some (some (some false)) := by decide +kernel

end SP
