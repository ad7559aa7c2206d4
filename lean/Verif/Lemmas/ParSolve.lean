import Verif.Lemmas.ParWorker
import Verif.Lemmas.ParTerm
import Verif.Lemmas.SolveCsp
/-!
# Rounds of `solve_csp` executed by several workers at once
-/
set_option linter.unusedSectionVars false

namespace SP
open FloatOps ConstraintGraph
variable {F : Type} [FloatOps F] {c c' : ConstraintGraph F} {B n : Nat} {jobs : UInt64} {fresh : Bool}

/-- A program that stores nothing keeps whatever loads keep. -/
theorem Wp.keep {α : Type} {e : Env} {p : Prog α} {s : View} {Q : α → View → Prop} {J : View → Prop}
    (hJ : ∀ s w t v, J s → s w ≤ t → e.R s w t v → J (setAt s w t)) (hb : p.NoBar)
    (h : Wp { e with G := fun _ _ => False } p s Q) (hs : J s) : Wp e p s fun a s' => Q a s' ∧ J s' := by
  induction p generalizing s with
  | ret a => exact ⟨h, hs⟩
  | fail er => exact h
  | load w k ih =>
    intro t v ht hv
    exact ih v (hb v) (h t v ht hv) (hJ s w t v hs ht hv)
  | store w v k ih => exact h.1.elim
  | barrier k ih => exact hb.elim

/-! ## Flags and graphs -/

theorem withFlags_getD (c : ConstraintGraph F) (m : Flags) (i : Nat) :
    (c.withFlags m).nodesAvailability.getD i false = (decide (i < c.nodesAvailability.size) && m i) := by
  simp only [withFlags, Array.getD_eq_getD_getElem?, Array.getElem?_ofFn]
  by_cases h : i < c.nodesAvailability.size <;> simp [h]

theorem withFlags_same (c : ConstraintGraph F) (m : Flags) : c.Same (c.withFlags m) := ⟨rfl, rfl, rfl⟩

theorem withFlags_valid (hc : c.Valid) (m : Flags) : (c.withFlags m).Valid :=
  ⟨hc.lowest, hc.same, by simp [withFlags]; exact hc.size⟩

theorem withFlags_av (hc : c.Valid) (m : Flags) (x y d : Nat) :
    (c.withFlags m).Av x y d ↔ x < c.w ∧ y < c.h ∧ d < c.levels ∧ m (c.ix x y d) = true := by
  have e1 : (c.withFlags m).w = c.w := rfl
  have e2 : (c.withFlags m).h = c.h := rfl
  have e3 : (c.withFlags m).levels = c.levels := rfl
  unfold Av
  rw [e1, e2, e3, withFlags_getD]
  refine and_congr_right fun hx => and_congr_right fun hy => and_congr_right fun hd => ?_
  simp [(hc.nidx_lt' hx hy hd).1]

theorem withFlags_self (c : ConstraintGraph F) : c.withFlags (flagsOf c.nodesAvailability) = c := by
  have : (Array.ofFn (n := c.nodesAvailability.size) fun i => flagsOf c.nodesAvailability i)
      = c.nodesAvailability := by
    apply Array.ext
    · simp
    · intro i h1 h2
      simp [flagsOf, Array.getD, h2]
  unfold withFlags
  rw [this]

theorem av_iff_flags (x y d : Nat) :
    c.Av x y d ↔ x < c.w ∧ y < c.h ∧ d < c.levels ∧ flagsOf c.nodesAvailability (c.ix x y d) = true := Iff.rfl

/-! ## Values of words in a round -/

/-- All the flags of the word are at most those of `A`. -/
def Below (B : Nat) (A : Flags) (w : Nat) (v : Flags) : Prop := ∀ i, i / B = w → v i = true → A i = true

/-- Surroundings in which flags are never set. -/
def envBelow (B : Nat) (A : Flags) : Env where
  R := fun _ w _ v => Below B A w v
  St := fun _ _ _ => True
  G := Below B A
  E := fun _ => False

theorem Below.clear {A : Flags} {i : Nat} {v : Flags} (h : Below B A (i / B) v) :
    Below B A (i / B) (fun j => if j = i then false else v j) := by
  intro j hj hv
  by_cases hji : j = i
  · simp [hji] at hv
  · simp only [if_neg hji] at hv
    exact h j hj hv

/-- In these surroundings a worker of `solve_csp` sets no flag and does not fail. -/
theorem iteration_below (hc : c.Valid) {jobs job : Nat} (hj : 0 < jobs) (hfit : c.h + jobs ≤ 18446744073709551616)
    (hjob : job < 18446744073709551616) (A : Flags) (s : View) :
    Wp (envBelow B A) (Par.cspSolutionIteration B c (UInt64.ofNat jobs) (UInt64.ofNat job)) s fun _ _ => True := by
  refine cspSolutionIteration_wp hc hj hfit hjob (fun _ _ _ => True) (fun _ => True) trivial (fun _ _ _ => trivial)
    ?_ ?_ (fun _ _ _ => trivial)
  · intro k x s' _ hx hy _
    refine cspProcessPixel_wp hc hx hy (fun _ _ _ => True) trivial ?_ ?_
    · intro d ch s2 _ hn _
      refine (shouldRemoveNode_wp hc hn).mono ?_
      intro b s3 _ _
      cases b
      · simp
      · simp only [if_true]
        exact fun t v _ hv => ⟨hv.clear, fun _ _ _ => trivial⟩
    · intro ch s2 _ _
      refine (pixelAvailable_wp hc hx hy).mono ?_
      intro b s3 _ _
      cases b <;> simp
  · intro s' _ _
    refine (checkNodesLeft_wp hc).mono ?_
    intro b s2 _ _
    cases b
    · simp
    · simp only [if_true]
      exact makeAllNodesUnavailable_wp hc fun s i t v _ _ hv => hv.clear

/-- All nodes of `S` are available in the word. -/
def Above (B : Nat) (c : ConstraintGraph F) (S : NodeSet) (w : Nat) (v : Flags) : Prop :=
  ∀ x y d, S x y d → c.ix x y d / B = w → v (c.ix x y d) = true

/-- Surroundings in which nodes of `S` stay available. -/
def envAbove (B : Nat) (c : ConstraintGraph F) (S : NodeSet) : Env where
  R := fun _ w _ v => Above B c S w v
  St := fun _ _ _ => True
  G := Above B c S
  E := fun _ => False

/-- In these surroundings a worker removes no node of an arc consistent set that has a node in each pixel, and returns false. -/
theorem iteration_above (hc : c.Valid) {jobs job : Nat} (hj : 0 < jobs) (hfit : c.h + jobs ≤ 18446744073709551616)
    (hjob : job < 18446744073709551616) {S : NodeSet} (hS : ∀ x y d, S x y d → c.disparityGraph.IsNode x y d)
    (harc : ArcConsistent c.w c.h c.E S) (hal : AllAlive c.w c.h S) (s : View) :
    Wp (envAbove B c S) (Par.cspSolutionIteration B c (UInt64.ofNat jobs) (UInt64.ofNat job)) s
      fun b _ => b = false := by
  have hrd : ∀ {s x y d}, S x y d → ¬ Rd (envAbove B c S) B s (c.ix x y d) false := by
    rintro s x y d h ⟨s', t, v, _, _, hv, hf⟩
    have := hv x y d h rfl
    rw [this] at hf
    exact absurd hf (by simp)
  refine cspSolutionIteration_wp hc hj hfit hjob (fun _ _ _ => True) (fun _ => False) trivial (fun _ _ _ => trivial)
    ?_ (fun _ _ h => h.elim) (fun _ _ _ => rfl)
  intro k x s' _ hx hy _
  refine cspProcessPixel_wp hc hx hy (fun _ _ _ => True) trivial ?_ ?_
  · intro d ch s2 _ hn _
    refine (shouldRemoveNode_wp hc hn).mono ?_
    intro b s3 _ hb
    cases b
    · simp
    · simp only [if_true] at hb ⊢
      intro t v _ hv
      refine ⟨?_, fun _ _ _ => trivial⟩
      have hns : ¬ S x (job + k * jobs) d := by
        intro hSd
        obtain ⟨_, k', hk', hno⟩ := hb
        obtain ⟨d', hd', he⟩ := harc _ _ _ hSd k' hk'
        rcases hno d' he with h | h
        · exact hrd hSd h
        · exact hrd hd' h
      intro x' y' d' hS' hw
      have hne : c.ix x' y' d' ≠ c.ix x (job + k * jobs) d := by
        intro he
        have h1 := hS x' y' d' hS'
        obtain ⟨rfl, rfl, rfl⟩ := nidx_inj (h := c.h) (l := c.levels) h1.2.1 h1.2.2.1 hn.2.1 hn.2.2.1 he
        exact hns hS'
      simp only [if_neg hne]
      exact hv x' y' d' hS' hw
  · intro ch s2 _ _
    refine (pixelAvailable_wp hc hx hy).mono ?_
    intro b s3 _ hb
    cases b
    · simp only [Bool.false_eq_true, if_false] at hb ⊢
      obtain ⟨d, hd⟩ := hal x _ hx hy
      exact hrd hd (hb d (hS _ _ _ hd))
    · simp

/-! ## One round -/

theorem jobs_ofNat (jobs : UInt64) : UInt64.ofNat jobs.toNat = jobs := by simp

section
variable (hc : c.Valid) (hj : 0 < jobs.toNat) (hfit : c.h + jobs.toNat ≤ 18446744073709551616)
  (hn : n ≤ 18446744073709551616)
include hc hj hfit hn

/-- In all executions of a round words have only flags that were set in the beginning, and nobody fails. -/
theorem round_below {P : Pool Bool} (h : Steps fresh (fun _ => 0) n (roundStart B jobs c) P) :
    (∀ (w t : Nat) (v : Flags), (P.mem w)[t]? = some v → Below B (flagsOf c.nodesAvailability) w v) ∧
    (∀ i er, i < n → P.prog i ≠ .fail er) := by
  have := h.sound (e := envBelow B (flagsOf c.nodesAvailability)) (Q := fun _ _ _ => True) (Pool.start_ok _ _)
    (by
      intro s w t v hv
      simp only [roundStart, Pool.start, memOf] at hv
      rw [List.getElem?_singleton] at hv
      split at hv
      · simp only [Option.some.injEq] at hv
        subst hv
        exact fun _ _ h => h
      · simp at hv)
    (fun _ _ _ _ h => h) (fun _ _ _ => trivial)
    (by
      intro i hi
      have := iteration_below (B := B) hc hj hfit (job := i) (by omega) (flagsOf c.nodesAvailability) (fun _ => 0)
      rw [jobs_ofNat] at this
      exact this)
  refine ⟨?_, ?_⟩
  · intro w t v hv
    obtain ⟨l, hl, hg⟩ := this.1 w
    rw [hl] at hv
    rcases List.mem_append.1 (List.mem_of_getElem? hv) with h | h
    · simp only [roundStart, Pool.start, memOf, List.mem_singleton] at h
      subst h
      exact fun _ _ h => h
    · exact hg v h
  · intro i er hi he
    have := this.2 i hi
    rw [he] at this
    exact this

/-- In all executions of a round nodes of an arc consistent set with a node in each pixel stay available all the time, and workers
return only false. -/
theorem round_above (hp : c.Proper) {S : NodeSet} (hS : Sub S c.Av)
    (harc : ArcConsistent c.w c.h c.E S) (hal : AllAlive c.w c.h S)
    {P : Pool Bool} (h : Steps fresh (fun _ => 0) n (roundStart B jobs c) P) :
    (∀ (w t : Nat) (v : Flags), (P.mem w)[t]? = some v → Above B c S w v) ∧
    (∀ i b, i < n → P.prog i = .ret b → b = false) := by
  have := h.sound (e := envAbove B c S) (Q := fun _ b _ => b = false) (Pool.start_ok _ _)
    (by
      intro s w t v hv
      simp only [roundStart, Pool.start, memOf] at hv
      rw [List.getElem?_singleton] at hv
      split at hv
      · simp only [Option.some.injEq] at hv
        subst hv
        exact fun x y d h _ => (hS x y d h).2.2.2
      · simp at hv)
    (fun _ _ _ _ h => h) (fun _ _ _ => trivial)
    (by
      intro i hi
      have := iteration_above (B := B) hc hj hfit (job := i) (by omega) (fun x y d h => hp x y d (hS x y d h))
        harc hal (fun _ => 0)
      rw [jobs_ofNat] at this
      exact this)
  refine ⟨?_, ?_⟩
  · intro w t v hv
    obtain ⟨l, hl, hg⟩ := this.1 w
    rw [hl] at hv
    rcases List.mem_append.1 (List.mem_of_getElem? hv) with h | h
    · simp only [roundStart, Pool.start, memOf, List.mem_singleton] at h
      subst h
      exact fun x y d h _ => (hS x y d h).2.2.2
    · exact hg v h
  · intro i b hi he
    have := this.2 i hi
    rw [he] at this
    exact this

end

/-- The current contents are the latest values of words. -/
theorem current_get {α : Type} {P : Pool α} {A : Flags} {prog : Nat → Prog α} {group : Nat → Nat}
    (h : Steps fresh group n (.start A prog) P) (w : Nat) :
    ∃ t v, (P.mem w)[t]? = some v ∧ t + 1 = (P.mem w).length ∧ ∀ i, i / B = w → current B P.mem i = v i := by
  obtain ⟨l, hl⟩ := h.mem_grows w
  have hne : P.mem w ≠ [] := by rw [hl]; simp [Pool.start, memOf]
  have hlen : 0 < (P.mem w).length := List.length_pos_iff.2 hne
  refine ⟨(P.mem w).length - 1, (P.mem w).getLast hne, ?_, by omega, ?_⟩
  · rw [List.getElem?_eq_getElem (by omega), List.getLast_eq_getElem]
  · rintro i rfl
    unfold current
    rw [List.getLastD_eq_getLast?, List.getLast?_eq_some_getLast hne]
    rfl

/-- What a round does to the graph. -/
theorem RoundTo.basic {changed : Bool} (h : RoundTo B n jobs c c' changed) (hc : c.Valid) (hj : 0 < jobs.toNat)
    (hfit : c.h + jobs.toNat ≤ 18446744073709551616) (hn : n ≤ 18446744073709551616) :
    c.Same c' ∧ c'.Valid ∧ Sub c'.Av c.Av := by
  obtain ⟨P, r, hs, hr, hch, rfl⟩ := h
  refine ⟨withFlags_same c _, withFlags_valid hc _, ?_⟩
  intro x y d hav
  rw [withFlags_av hc] at hav
  obtain ⟨hx, hy, hd, hav⟩ := hav
  refine ⟨hx, hy, hd, ?_⟩
  obtain ⟨t, v, hv, _, hcur⟩ := current_get (B := B) hs (c.ix x y d / B)
  rw [hcur _ rfl] at hav
  exact (round_below hc hj hfit hn hs).1 _ t v hv _ rfl hav

/-- Arc consistent sets with a node in each pixel survive a round, which reports no change. -/
theorem RoundTo.keeps {changed : Bool} (h : RoundTo B n jobs c c' changed) (hc : c.Valid) (hp : c.Proper)
    (hj : 0 < jobs.toNat) (hfit : c.h + jobs.toNat ≤ 18446744073709551616) (hn : n ≤ 18446744073709551616)
    {S : NodeSet} (hS : Sub S c.Av) (harc : ArcConsistent c.w c.h c.E S) (hal : AllAlive c.w c.h S) :
    changed = false ∧ Sub S c'.Av := by
  obtain ⟨P, r, hs, hr, hch, rfl⟩ := h
  have := round_above hc hj hfit hn hp hS harc hal hs
  refine ⟨?_, ?_⟩
  · cases changed
    · rfl
    · obtain ⟨i, hi, hri⟩ := hch.1 rfl
      rw [this.2 i (r i) hi (hr i hi)] at hri
      exact absurd hri (by simp)
  · intro x y d hSd
    obtain ⟨hx, hy, hd, _⟩ := hS x y d hSd
    rw [withFlags_av hc]
    refine ⟨hx, hy, hd, ?_⟩
    obtain ⟨t, v, hv, _, hcur⟩ := current_get (B := B) hs (c.ix x y d / B)
    rw [hcur _ rfl]
    exact this.1 _ t v hv x y d hSd rfl

end SP
