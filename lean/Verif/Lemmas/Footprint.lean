import Verif.Spec.Race
import Verif.Lemmas.GpuLaunch
/-!
# Words that are accessed
-/
set_option linter.unusedSectionVars false

namespace SP
open FloatOps ConstraintGraph
variable {F : Type} [FloatOps F] {c c' : ConstraintGraph F} {B n : Nat} {jobs : UInt64} {fresh : Bool}
  {group : Nat → Nat} {α β : Type} {L S : Nat → Prop}

/-- Whatever is loaded, the program loads only words of `L` and stores only words of `S`. -/
def Prog.Uses (L S : Nat → Prop) : Prog α → Prop
  | .ret _ => True
  | .fail _ => True
  | .load w k => L w ∧ ∀ v, (k v).Uses L S
  | .store w _ k => S w ∧ k.Uses L S
  | .barrier k => k.Uses L S

namespace Prog

theorem Uses.bind {p : Prog α} {f : α → Prog β} (h : p.Uses L S) (hf : ∀ a, (f a).Uses L S) : (p.bind f).Uses L S := by
  induction p with
  | ret a => exact hf a
  | fail e => trivial
  | load w k ih => exact ⟨h.1, fun v => ih v (h.2 v)⟩
  | store w v k ih => exact ⟨h.1, ih h.2⟩
  | barrier k ih => exact ih h

theorem uses_lift (m : M α) : (lift m).Uses L S := by
  cases m <;> trivial

theorem Uses.pfor {ι σ : Type} {fuel : Nat} {i : ι} {cond : ι → Bool} {step : ι → ι} {body : ι → σ → Prog (σ × Bool)} {a : σ}
    (h : ∀ i a, cond i = true → (body i a).Uses L S) : (SP.pfor fuel i cond step body a).Uses L S := by
  induction fuel generalizing i a with
  | zero =>
    unfold SP.pfor
    split <;> trivial
  | succ fuel ih =>
    unfold SP.pfor
    split
    · rename_i hc
      refine (h i a hc).bind fun r => ?_
      split
      · trivial
      · exact ih
    · trivial

theorem Uses.mono {p : Prog α} {L' S' : Nat → Prop} (h : p.Uses L S) (hL : ∀ w, L w → L' w) (hS : ∀ w, S w → S' w) :
    p.Uses L' S' := by
  induction p with
  | ret a => trivial
  | fail e => trivial
  | load w k ih => exact ⟨hL w h.1, fun v => ih v (h.2 v)⟩
  | store w v k ih => exact ⟨hS w h.1, ih h.2⟩
  | barrier k ih => exact ih h

theorem Uses.loads {p : Prog α} {w : Nat} (h : p.Uses L S) (hp : p.Loads w) : L w := by
  obtain ⟨k, rfl⟩ := hp
  exact h.1

theorem Uses.stores {p : Prog α} {w : Nat} (h : p.Uses L S) (hp : p.Stores w) : S w := by
  obtain ⟨v, k, rfl⟩ := hp
  exact h.1

end Prog

/-- What a worker may access does not grow. -/
theorem Step.uses {P P' : Pool α} (h : Step fresh group n P P') {i : Nat} (hp : (P.prog i).Uses L S) :
    (P'.prog i).Uses L S := by
  cases h with
  | @load j w t k v hj hpj hv ht hf =>
    by_cases hij : i = j
    · subst hij
      rw [hpj] at hp
      simpa using hp.2 v
    · simpa [setAt_ne _ _ hij] using hp
  | @store j w k v hj hpj =>
    by_cases hij : i = j
    · subst hij
      rw [hpj] at hp
      simpa using hp.2
    · simpa [setAt_ne _ _ hij] using hp
  | @barrier γ k seen hne hpj hle hex hout =>
    by_cases hg : i < n ∧ group i = γ
    · rw [hpj i hg.1 hg.2] at hp
      have hp' : (k i).Uses L S := hp
      simpa [hg] using hp'
    · simpa [hg] using hp

theorem Steps.uses {P P' : Pool α} (h : Steps fresh group n P P') {i : Nat} (hp : (P.prog i).Uses L S) :
    (P'.prog i).Uses L S := by
  induction h with
  | refl => exact hp
  | step _ h' ih => exact h'.uses ih

/-! ## Functions of `constraint_graph.cpp` -/

theorem rdFlag_uses {size : Nat} {i : UInt64} (h : L (i.toNat / B)) : (Par.rdFlag B size i).Uses L S := by
  unfold Par.rdFlag
  split
  · exact ⟨h, fun _ => trivial⟩
  · trivial

theorem wrFlag_uses {size : Nat} {i : UInt64} {b : Bool} (h : L (i.toNat / B)) (h' : S (i.toNat / B)) :
    (Par.wrFlag B size i b).Uses L S := by
  unfold Par.wrFlag
  split
  · exact ⟨h, fun _ => ⟨h', trivial⟩⟩
  · trivial

theorem nodeIndex_toNat (hc : c.Valid) {x y d : Nat} (hx : x < c.w) (hy : y < c.h) (hd : d < c.levels) :
    (nodeIndex c.disparityGraph (mkNode x y d)).toNat = c.ix x y d := by
  rw [nodeIndex_mk]
  exact toNat_ofNat_lt (hc.nidx_lt' hx hy hd).2

theorem isNodeAvailable_uses (hc : c.Valid) {x y d : Nat} (hx : x < c.w) (hy : y < c.h) (hd : d < c.levels)
    (h : L (c.ix x y d / B)) : (Par.isNodeAvailable B c (mkNode x y d)).Uses L S := by
  unfold Par.isNodeAvailable
  refine rdFlag_uses ?_
  rw [nodeIndex_toNat hc hx hy hd]
  exact h

theorem makeNodeUnavailable_uses (hc : c.Valid) {x y d : Nat} (hx : x < c.w) (hy : y < c.h) (hd : d < c.levels)
    (h : L (c.ix x y d / B)) (h' : S (c.ix x y d / B)) : (Par.makeNodeUnavailable B c (mkNode x y d)).Uses L S := by
  unfold Par.makeNodeUnavailable
  apply wrFlag_uses <;> rw [nodeIndex_toNat hc hx hy hd]
  · exact h
  · exact h'

theorem isEdgeAvailable_uses (hc : c.Valid) {x y k d d' : Nat} (hk : HasNb c.w c.h x y k) (hd : d < c.levels)
    (hd' : d' < c.levels) (h : L (c.ix x y d / B)) (h' : L (c.ix (nbx x k) (nby y k) d' / B)) :
    (Par.isEdgeAvailable B c ⟨mkNode x y d, mkNode (nbx x k) (nby y k) d'⟩).Uses L S := by
  unfold Par.isEdgeAvailable
  refine (Prog.uses_lift _).bind fun p => (Prog.uses_lift _).bind fun l => ?_
  split
  · trivial
  · refine (isNodeAvailable_uses hc hk.1 hk.2.1 hd h).bind fun b => ?_
    split
    · trivial
    · refine (isNodeAvailable_uses hc hk.nbx_lt hk.nby_lt hd' h').bind fun b => ?_
      split <;> trivial

theorem edgeFound_uses (hc : c.Valid) {x y k d : Nat} (hk : HasNb c.w c.h x y k) (hd : d < c.levels)
    (h : L (c.ix x y d / B)) (h' : ∀ d', d' < c.levels → L (c.ix (nbx x k) (nby y k) d' / B)) :
    (Par.edgeFound B c (mkNode x y d) (mkPixel (nbx x k) (nby y k))).Uses L S := by
  unfold Par.edgeFound
  refine Prog.Uses.pfor fun d' a hcond => ?_
  simp only [Bool.and_eq_true, decide_eq_true_eq] at hcond
  have hd' : d'.toNat < c.levels := UInt64.lt_iff_toNat_lt.1 hcond.2
  have e : (⟨mkPixel (nbx x k) (nby y k), d'⟩ : Node) = mkNode (nbx x k) (nby y k) d'.toNat := by
    simp [mkNode, mkPixel]
  rw [e]
  refine (isEdgeAvailable_uses hc hk hd hd' h (h' _ hd')).bind fun b => ?_
  split <;> trivial

/-- The words of flags of the pixel and of its neighbors. -/
def AroundWords (B : Nat) (c : ConstraintGraph F) (x y w : Nat) : Prop :=
  (∃ d, d < c.levels ∧ w = c.ix x y d / B) ∨
  ∃ k d, HasNb c.w c.h x y k ∧ d < c.levels ∧ w = c.ix (nbx x k) (nby y k) d / B

/-- The words of flags of the pixel. -/
def PixelWords (B : Nat) (c : ConstraintGraph F) (x y w : Nat) : Prop := ∃ d, d < c.levels ∧ w = c.ix x y d / B

theorem shouldRemoveNode_uses (hc : c.Valid) {x y d : Nat} (hx : x < c.w) (hy : y < c.h) (hd : d < c.levels) :
    (Par.shouldRemoveNode B c (mkNode x y d)).Uses (AroundWords B c x y) S := by
  have h0 : AroundWords B c x y (c.ix x y d / B) := .inl ⟨d, hd, rfl⟩
  unfold Par.shouldRemoveNode
  refine (isNodeAvailable_uses hc hx hy hd h0).bind fun b => ?_
  split
  · trivial
  · refine Prog.Uses.pfor fun k a hcond => ?_
    simp only [decide_eq_true_eq] at hcond
    have hk4 : k.toNat < 4 := UInt64.lt_iff_toNat_lt.1 hcond
    have hN := neighborhoodExistsFast_mk hc.graph.toDims hx hy hk4
    have hpx : (mkNode x y d).pixel = mkPixel x y := rfl
    have hke : UInt64.ofNat k.toNat = k := by simp
    rw [hpx]
    rw [hke] at hN
    cases hE : neighborhoodExistsFast c.disparityGraph (mkPixel x y) k
    · simp only [Bool.not_false, if_true]
      trivial
    · have hNb := hN.1 hE
      simp only [Bool.not_true, Bool.false_eq_true, if_false]
      have hnb := neighborByIndex_mk hNb
      rw [hke] at hnb
      rw [hnb]
      refine (edgeFound_uses hc hNb hd h0 fun d' hd' => .inr ⟨k.toNat, d', hNb, hd', rfl⟩).bind fun b => ?_
      split <;> trivial

theorem cspProcessPixel_uses (hc : c.Valid) {x y : Nat} (hx : x < c.w) (hy : y < c.h) :
    (Par.cspProcessPixel B c (mkPixel x y)).Uses (AroundWords B c x y) (PixelWords B c x y) := by
  unfold Par.cspProcessPixel
  refine Prog.Uses.pfor fun d a hcond => ?_
  simp only [Bool.and_eq_true, decide_eq_true_eq] at hcond
  have hd : d.toNat < c.levels := UInt64.lt_iff_toNat_lt.1 hcond.2
  have e : (⟨mkPixel x y, d⟩ : Node) = mkNode x y d.toNat := by simp [mkNode, mkPixel]
  simp only [e]
  refine (shouldRemoveNode_uses hc hx hy hd).bind fun b => ?_
  split
  · exact (makeNodeUnavailable_uses hc hx hy hd (.inl ⟨_, hd, rfl⟩) ⟨_, hd, rfl⟩).bind fun _ => trivial
  · trivial

/-! ## Work items -/
namespace Gpu

/-- Cells `changed[0]`, `changed[1]`. -/
def IsChanged (c : ConstraintGraph F) (w : Nat) : Prop := w = changedWord c 0 ∨ w = changedWord c 1

theorem item_uses (hc : c.Valid) {x y : Nat} (hx : x < c.w) (hy : y < c.h) {cl : Bool} {p : Prog Unit} (hp : IsItem c x y cl p) :
    p.Uses (fun w => IsChanged c w ∨ AroundWords 1 c x y w) (fun w => IsChanged c w ∨ PixelWords 1 c x y w) := by
  have hrounds : ∀ (mark : Prog Unit), (mark.Uses (fun w => IsChanged c w ∨ AroundWords 1 c x y w)
      (fun w => IsChanged c w ∨ PixelWords 1 c x y w)) → ∀ fuel, (rounds c mark (mkPixel x y) fuel).Uses
      (fun w => IsChanged c w ∨ AroundWords 1 c x y w) (fun w => IsChanged c w ∨ PixelWords 1 c x y w) := by
    intro mark hm fuel
    induction fuel with
    | zero => trivial
    | succ fuel ih =>
      rw [rounds_succ]
      refine ⟨.inl (.inl rfl), ?_⟩
      unfold Prog.Uses mid
      refine ((cspProcessPixel_uses hc hx hy).mono (fun _ => .inr) fun _ => .inr).bind fun ch => ?_
      refine Prog.Uses.bind ?_ fun _ => ?_
      · split
        · exact hm
        · trivial
      · refine ⟨.inl (.inl rfl), fun v => ?_⟩
        simp only [prog_ret_bind]
        split
        · exact ih
        · trivial
  cases hp with
  | cl => exact ⟨.inl (.inl rfl), .inl (.inr rfl), hrounds (markCl c) ⟨.inl (.inl rfl), .inl (.inr rfl), trivial⟩ _⟩
  | cuda => exact hrounds (markCuda c) ⟨.inl (.inl rfl), trivial⟩ _

end Gpu

/-! ## Workers -/

theorem idle_uses {job : UInt64} (h : c.h ≤ job.toNat) :
    (Par.cspSolutionIteration B c jobs job).Uses (fun _ => False) fun _ => False := by
  unfold Par.cspSolutionIteration
  rw [if_pos (show job ≥ c.disparityGraph.right.height from UInt64.le_iff_toNat_le.2 h)]
  trivial

/-- A worker stores only nodes of its rows that were available and do not belong to the arc consistent set. -/
theorem round_stores (hc : c.Valid) (hj : 0 < jobs.toNat) (hfit : c.h + jobs.toNat ≤ 18446744073709551616)
    (hn : n ≤ 18446744073709551616) (hp : c.Proper) {S : NodeSet} (hS : Sub S c.Av)
    (harc : ArcConsistent c.w c.h c.E S) (hal : AllAlive c.w c.h S)
    {P : Pool Bool} (h : Steps fresh (fun _ => 0) n (roundStart B jobs c) P) {i w : Nat} (hi : i < n)
    (hw : (P.prog i).Stores w) :
    ∃ x k d, c.Av x (i + k * jobs.toNat) d ∧ ¬ S x (i + k * jobs.toNat) d ∧ w = c.ix x (i + k * jobs.toNat) d / B := by
  have habove := (round_above hc hj hfit hn hp hS harc hal h).1
  have hbelow := (round_below hc hj hfit hn h).1
  obtain ⟨own, -, hloc⟩ := h.local' (Pool.start_ok _ _)
  let e : Env :=
    { R := fun _ w t v => (P.mem w)[t]? = some v
      St := fun _ _ _ => True
      G := fun w _ => ∃ x k d, c.Av x (i + k * jobs.toNat) d ∧ ¬ S x (i + k * jobs.toNat) d ∧
        w = c.ix x (i + k * jobs.toNat) d / B
      E := fun _ => True }
  have hrd : ∀ {s x y d}, S x y d → ¬ Rd e B s (c.ix x y d) false := by
    rintro s x y d h ⟨s', t, v, _, _, hv, hf⟩
    have := habove _ _ _ hv x y d h rfl
    rw [this] at hf
    exact absurd hf (by simp)
  have hS' : ∀ x y d, S x y d → c.disparityGraph.IsNode x y d := fun x y d h => hp x y d (hS x y d h)
  have key := cspSolutionIteration_wp (e := e) (B := B) (s := fun _ => 0) hc hj hfit (job := i) (by omega)
    (J := fun _ _ _ => True) (D := fun _ => False) (Q := fun _ _ => True) trivial (fun _ _ _ => trivial)
    (by
      intro k x s' _ hx hy _
      refine cspProcessPixel_wp hc hx hy (fun _ _ _ => True) trivial ?_ ?_
      · intro d ch s2 _ hnode _
        refine (shouldRemoveNode_wp hc hnode).mono ?_
        intro b s3 _ hb
        cases b
        · simp
        · simp only [if_true] at hb ⊢
          intro t v _ hv
          refine ⟨⟨x, k, d, ?_, ?_, rfl⟩, fun _ _ _ => trivial⟩
          · obtain ⟨⟨s4, t4, v4, _, _, hv4, htrue⟩, _⟩ := hb
            exact ⟨hnode.1, hnode.2.1, hnode.2.2.1, hbelow _ _ _ hv4 _ rfl htrue⟩
          · intro hSd
            obtain ⟨_, k', hk', hno⟩ := hb
            obtain ⟨d', hd', he⟩ := harc _ _ _ hSd k' hk'
            rcases hno d' he with h | h
            · exact hrd hSd h
            · exact hrd hd' h
      · intro ch s2 _ _
        refine (pixelAvailable_wp hc hx hy).mono ?_
        intro b s3 _ hb
        cases b
        · simp only [Bool.false_eq_true, if_false] at hb ⊢
          obtain ⟨d, hd⟩ := hal x _ hx hy
          exact hrd hd (hb d (hS' _ _ _ hd))
        · simp)
    (fun _ _ h => h.elim) (fun _ _ _ => trivial)
  rw [jobs_ofNat] at key
  have := (hloc i hi e (fun _ _ => True) (fun s w t v hv _ => hv) (fun _ _ _ _ _ _ => trivial) key).1
  obtain ⟨v, k, hk⟩ := hw
  rw [hk] at this
  exact this.1

end SP
