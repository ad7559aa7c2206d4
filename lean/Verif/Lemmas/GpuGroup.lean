import Verif.Lemmas.GpuLaunch
/-!
# Work items of one group
-/
set_option linter.unusedSectionVars false

namespace SP
open FloatOps ConstraintGraph
variable {F : Type} [FloatOps F] {c : ConstraintGraph F} {fresh : Bool} {group : Nat → Nat} {α β : Type} {e : Env}

/-- What the program does until it returns or waits at a barrier. -/
def Until (e : Env) : Prog α → View → (α → View → Prop) → (Prog α → View → Prop) → Prop
  | .ret a, s, Q, _ => Q a s
  | .fail er, _, _, _ => e.E er
  | .load w k, s, Q, W => ∀ t v, s w ≤ t → e.R s w t v → Until e (k v) (setAt s w t) Q W
  | .store w v k, s, Q, W => e.G w v ∧ ∀ t, s w ≤ t → e.St w t v → Until e k (setAt s w t) Q W
  | .barrier k, s, _, W => W k s

theorem Until.seq {p : Prog α} {f : α → Prog β} {s : View} {A : α → View → Prop} {Q : β → View → Prop}
    {W : Prog β → View → Prop} (hb : p.NoBar) (h : Wp e p s A)
    (hf : ∀ a s', s.le s' → A a s' → Until e (f a) s' Q W) : Until e (p.bind f) s Q W := by
  induction p generalizing s with
  | ret a => exact hf a s (View.le_refl s) h
  | fail er => exact h
  | load w k ih =>
    intro t v ht hv
    exact ih v (hb v) (h t v ht hv) fun a s' hs => hf a s' (View.le_trans (View.le_set ht) hs)
  | store w v k ih =>
    refine ⟨h.1, fun t ht hv => ?_⟩
    exact ih hb (h.2 t ht hv) fun a s' hs => hf a s' (View.le_trans (View.le_set ht) hs)
  | barrier k ih => exact hb.elim

namespace Gpu

/-- The last value of a word is of this kind. -/
def LastIs (l : List Flags) (w : Nat) (b : Bool) : Prop := ∀ v, l[l.length - 1]? = some v → v w = b

/-- The flags belong to the pixel. -/
def Own (c : ConstraintGraph F) (x y w : Nat) : Prop := ∃ d, d < c.levels ∧ w = c.ix x y d

/-- Between the two barriers of a round: each item clears its own flags and reports it. -/
def envWork (c : ConstraintGraph F) (M : Nat → List Flags) (x y : Nat) : Env where
  R := fun s w t _ => Own c x y w → t ≤ s w
  St := fun w t _ => (M w).length ≤ t
  G := fun w v => (IsFlag c w → v w = false ∧ Own c x y w) ∧ (w = changedWord c 0 → v w = true)
  E := fun _ => False

/-- Between the two barriers of a round, as long as nobody clears flags. -/
def envSame (c : ConstraintGraph F) (A : Flags) : Env where
  R := fun _ w _ v => IsFlag c w → v w = A w
  St := fun w _ _ => ¬ IsFlag c w
  G := fun _ _ => True
  E := fun _ => True

/-- A change is reported, or flags of the pixel are as they were. -/
def Reported (c : ConstraintGraph F) (M : Nat → List Flags) (x y : Nat) (s : View) : Prop :=
  (M (changedWord c 0)).length ≤ s (changedWord c 0) ∨
  ∀ d, d < c.levels → s (c.ix x y d) + 1 = (M (c.ix x y d)).length

theorem markOf_noBar (c : ConstraintGraph F) (cl : Bool) : (markOf c cl).NoBar := by cases cl <;> trivial

theorem mid_work (hc : c.Valid) {x y : Nat} (hx : x < c.w) (hy : y < c.h) {M : Nat → List Flags} {cl : Bool} {f : Nat} {s : View}
    (hs : ∀ d, d < c.levels → s (c.ix x y d) + 1 = (M (c.ix x y d)).length) :
    Until (envWork c M x y) (mid c (markOf c cl) (mkPixel x y) f) s (fun _ _ => False)
      (fun k s' => k = tail c (markOf c cl) (mkPixel x y) f ∧ Reported c M x y s') := by
  let J : View → Prop := fun s => ∀ d, d < c.levels → s (c.ix x y d) + 1 = (M (c.ix x y d)).length
  have hJ : ∀ s w t v, J s → s w ≤ t → (envWork c M x y).R s w t v → J (setAt s w t) := by
    intro s w t v h hst hR d hd
    by_cases hw : c.ix x y d = w
    · have : t ≤ s w := hR ⟨d, hd, hw.symm⟩
      have : t = s w := by omega
      subst this
      rw [hw, setAt_self, ← hw]
      exact h d hd
    · rw [setAt_ne _ _ hw]
      exact h d hd
  refine Until.seq (A := fun ch s' => ch = true ∨ J s') (cspProcessPixel_noBar _) ?_ ?_
  · refine cspProcessPixel_wp hc hx hy (fun _ ch s' => ch = true ∨ J s') (.inr hs) ?_ (fun _ _ _ h => h)
    intro d ch s2 _ hn hP
    have hstore : ∀ s3 : View, ∀ t v, s3 (c.ix x y d / 1) ≤ t → (envWork c M x y).R s3 (c.ix x y d / 1) t v →
        (envWork c M x y).G (c.ix x y d / 1) (fun j => if j = c.ix x y d then false else v j) ∧
        ∀ t', t ≤ t' → (envWork c M x y).St (c.ix x y d / 1) t' (fun j => if j = c.ix x y d then false else v j) →
          (True ∨ J (setAt s3 (c.ix x y d / 1) t')) := by
      intro s3 t v _ _
      refine ⟨⟨fun _ => ?_, fun he => ?_⟩, fun _ _ _ => .inl trivial⟩
      · rw [ix_div]
        exact ⟨by simp, d, hn.2.2.1, rfl⟩
      · rw [ix_div] at he
        exact absurd (he ▸ ix_flag hc hn.1 hn.2.1 hn.2.2.1) (changed_notFlag c 0)
    rcases hP with h | h
    · refine (shouldRemoveNode_wp hc hn).mono ?_
      intro b s3 _ _
      cases b
      · exact .inl h
      · simp only [if_true]
        exact hstore s3
    · refine (Wp.keep hJ (shouldRemoveNode_noBar _) (shouldRemoveNode_wp hc hn) h).mono ?_
      rintro b s3 _ ⟨-, h3⟩
      cases b
      · exact .inr h3
      · simp only [if_true]
        exact hstore s3
  · intro ch s' _ h
    cases ch
    · rcases h with h | h
      · cases h
      · exact ⟨rfl, .inr h⟩
    · have hne : changedWord c 0 ≠ changedWord c 1 := by unfold changedWord; omega
      have hG : ∀ k, (envWork c M x y).G (changedWord c k) fun _ => true :=
        fun k => ⟨fun hf => absurd hf (changed_notFlag c k), fun _ => rfl⟩
      simp only [if_true]
      cases cl
      · refine ⟨hG 0, fun t _ ht => ⟨rfl, .inl ?_⟩⟩
        rw [setAt_self]; exact ht
      · refine ⟨hG 0, fun t _ ht => ⟨hG 1, fun t' _ _ => ⟨rfl, .inl ?_⟩⟩⟩
        rw [setAt_ne _ _ hne, setAt_self]; exact ht

theorem mid_same (hc : c.Valid) {x y : Nat} (hx : x < c.w) (hy : y < c.h) {A : Flags}
    (hp : ∀ x y d, avOf c A x y d → c.disparityGraph.IsNode x y d) {cl : Bool} {f : Nat} {s : View} :
    Until (envSame c A) (mid c (markOf c cl) (mkPixel x y) f) s (fun _ _ => False)
      (fun _ _ => ∀ d, avOf c A x y d → Supported c.w c.h c.E (avOf c A) x y d) := by
  refine Until.seq (cspProcessPixel_noBar _) (processPixel_still (A := A) hc hx hy hp (fun _ _ _ _ h => h) (fun _ _ _ h => h)
    (fun _ _ _ => trivial)) ?_
  rintro ch s' _ ⟨rfl, h⟩
  exact h

/-! ## Phases of a launch -/
section
variable (c : ConstraintGraph F) (cl : Bool) (n : Nat) (px py : Nat → Nat)

/-- The item waits at the first barrier of a round. -/
def Waits (P : Pool Unit) (f i : Nat) : Prop := P.prog i = .barrier (mid c (markOf c cl) (mkPixel (px i) (py i)) f)

/-- Before the first barrier. -/
structure PhaseS (m : Flags) (P : Pool Unit) : Prop where
  flags : ∀ w, IsFlag c w → P.mem w = [m]
  step : ∃ l, P.mem (changedWord c 0) = m :: l ∧ ∀ v ∈ l, v (changedWord c 0) = false
  prog : ∀ i, i < n →
    P.prog i = .store (changedWord c 0) (fun _ => false) (.store (changedWord c 1) (fun _ => false)
      (rounds c (markOf c cl) (mkPixel (px i) (py i)) (roundsLimit c))) ∨
    P.prog i = .store (changedWord c 1) (fun _ => false) (rounds c (markOf c cl) (mkPixel (px i) (py i)) (roundsLimit c)) ∨
    P.prog i = rounds c (markOf c cl) (mkPixel (px i) (py i)) (roundsLimit c) ∨
    (Waits c cl px py P (c.nodesAvailability.size + 1) i ∧ 1 < (P.mem (changedWord c 0)).length)

/-- Between the first barrier of a round and the second one; `M` is the memory at the first one. -/
structure PhaseP (f : Nat) (M : Nat → List Flags) (P : Pool Unit) : Prop where
  mem : ∀ w, ∃ l, P.mem w = M w ++ l ∧ ∀ v ∈ l, w = changedWord c 0 → v w = true
  zero : LastIs (M (changedWord c 0)) (changedWord c 0) false
  own : ∀ i w, i < n → Own c (px i) (py i) w → P.seen i w + 1 = (P.mem w).length
  view : ∀ i w, i < n → (M w).length ≤ P.seen i w + 1
  work : ∀ i, i < n → Until (envWork c M (px i) (py i)) (P.prog i) (P.seen i) (fun _ _ => False)
    (fun k s => k = tail c (markOf c cl) (mkPixel (px i) (py i)) f ∧ Reported c M (px i) (py i) s)
  same : (∀ w, IsFlag c w → P.mem w = M w) → ∀ i, i < n →
    Until (envSame c (current 1 M)) (P.prog i) (P.seen i) (fun _ _ => False)
      (fun _ _ => ∀ d, avOf c (current 1 M) (px i) (py i) d →
        Supported c.w c.h c.E (avOf c (current 1 M)) (px i) (py i) d)

/-- Between the second barrier of a round and the first one of the next; `M` is the memory at the second one. -/
structure PhaseA (f : Nat) (M : Nat → List Flags) (P : Pool Unit) : Prop where
  flags : ∀ w, IsFlag c w → P.mem w = M w
  step : ∃ l, P.mem (changedWord c 0) = M (changedWord c 0) ++ l ∧ ∀ v ∈ l, v (changedWord c 0) = false
  prog : ∀ i, i < n →
    (P.prog i = tail c (markOf c cl) (mkPixel (px i) (py i)) f ∧
      P.seen i (changedWord c 0) + 1 = (M (changedWord c 0)).length) ∨
    P.prog i = .ret () ∨
    P.prog i = rounds c (markOf c cl) (mkPixel (px i) (py i)) f ∨
    (∃ f', f = f' + 1 ∧ Waits c cl px py P f' i ∧ (M (changedWord c 0)).length < (P.mem (changedWord c 0)).length)
  stored : (M (changedWord c 0)).length < (P.mem (changedWord c 0)).length → ∃ j f', j < n ∧ Waits c cl px py P f' j
  fact : LastIs (M (changedWord c 0)) (changedWord c 0) false →
    ArcConsistent c.w c.h c.E (avOf c (current 1 M))
  done : (∃ i, i < n ∧ P.prog i = .ret ()) →
    ArcConsistent c.w c.h c.E (avOf c (current 1 M)) ∨ ∃ j f', j < n ∧ Waits c cl px py P f' j

end

/-! ## Changes of phases -/

theorem current_last {M : Nat → List Flags} {w : Nat} {v : Flags} (h : (M w)[(M w).length - 1]? = some v) :
    current 1 M w = v w := by
  unfold current
  rw [Nat.div_one, List.getLastD_eq_getLast?, List.getLast?_eq_getElem?, h]
  rfl

theorem last_some {l : List Flags} (h : 0 < l.length) : ∃ v, l[l.length - 1]? = some v :=
  ⟨l[l.length - 1]'(by omega), List.getElem?_eq_getElem (by omega)⟩

/-- Somebody knows the last value. -/
theorem latest {n : Nat} (h0 : 0 < n) {m : Flags} {prog : Nat → Prog Unit} {P : Pool Unit}
    (hs : Steps fresh group n (Pool.start m prog) P) (w : Nat) : ∃ i, i < n ∧ (P.mem w).length ≤ P.seen i w + 1 := by
  induction hs with
  | refl => exact ⟨0, h0, by simp [Pool.start, memOf]⟩
  | step h h' ih =>
    obtain ⟨i, hi, hle⟩ := ih
    cases h' with
    | @load j w' t k v hj hp hv ht hf =>
      refine ⟨i, hi, ?_⟩
      dsimp only
      by_cases hij : i = j
      · subst hij
        rw [setAt_self]
        by_cases hw : w = w'
        · subst hw; rw [setAt_self]; omega
        · rw [setAt_ne _ _ hw]; exact hle
      · rw [setAt_ne _ _ hij]; exact hle
    | @store j w' k v hj hp =>
      dsimp only
      by_cases hw : w = w'
      · subst hw
        exact ⟨j, hj, by rw [setAt_self, setAt_self, setAt_self]; simp⟩
      · refine ⟨i, hi, ?_⟩
        rw [setAt_ne _ _ hw]
        by_cases hij : i = j
        · subst hij; rw [setAt_self, setAt_ne _ _ hw]; exact hle
        · rw [setAt_ne _ _ hij]; exact hle
    | @barrier γ k seen hne hp hl hex hout =>
      refine ⟨i, hi, ?_⟩
      dsimp only
      by_cases hg : group i = γ
      · exact Nat.le_trans hle (Nat.add_le_add_right (hl i i w hi hg hi hg) 1)
      · rw [hout i (fun h => hg h.2)]; exact hle

section
variable {cl : Bool} {px py : Nat → Nat} {f : Nat} {M : Nat → List Flags} {m : Flags} {P Q : Pool Unit} {n : Nat}

/-- Items pass the first barrier of a round. -/
theorem PhaseP.begin (hc : c.Valid) (hpx : ∀ i, i < n → px i < c.w ∧ py i < c.h)
    (hp : ∀ x y d, avOf c (current 1 P.mem) x y d → c.disparityGraph.IsNode x y d)
    (hlast : LastIs (P.mem (changedWord c 0)) (changedWord c 0) false)
    (hmem : Q.mem = P.mem) (hfresh : ∀ i w, i < n → Q.seen i w + 1 = (P.mem w).length)
    (hprog : ∀ i, i < n → Q.prog i = mid c (markOf c cl) (mkPixel (px i) (py i)) f) :
    PhaseP c cl n px py f P.mem Q where
  mem := fun w => ⟨[], by rw [hmem, List.append_nil], by simp⟩
  zero := hlast
  own := fun i w hi _ => by rw [hmem]; exact hfresh i w hi
  view := fun i w hi => by rw [hfresh i w hi]
  work := fun i hi => by
    rw [hprog i hi]
    exact mid_work hc (hpx i hi).1 (hpx i hi).2 fun d _ => hfresh i _ hi
  same := fun _ i hi => by
    rw [hprog i hi]
    exact mid_same hc (hpx i hi).1 (hpx i hi).2 hp

/-- Items pass the second barrier of a round. -/
theorem PhaseA.begin (hc : c.Valid) (hsurj : ∀ x y, x < c.w → y < c.h → ∃ i, i < n ∧ px i = x ∧ py i = y)
    (h : PhaseP c cl n px py f M P) {k : Nat → Prog Unit} (hk : ∀ i, i < n → P.prog i = .barrier (k i))
    (hok : ∀ i w, i < n → P.seen i w < (P.mem w).length) (hmem : Q.mem = P.mem) (hfresh : ∀ i w, i < n → Q.seen i w + 1 = (P.mem w).length)
    (hprog : ∀ i, i < n → Q.prog i = k i) :
    PhaseA c cl n px py f P.mem Q := by
  have hw : ∀ i, i < n → k i = tail c (markOf c cl) (mkPixel (px i) (py i)) f ∧ Reported c M (px i) (py i) (P.seen i) := by
    intro i hi
    have := h.work i hi
    rw [hk i hi] at this
    exact this
  have hret : ∀ i, i < n → Q.prog i ≠ .ret () := by
    intro i hi he
    rw [hprog i hi, (hw i hi).1] at he
    exact absurd he (by simp [tail, rdChanged, Prog.bind])
  refine ⟨fun w _ => by rw [hmem], ⟨[], by rw [hmem, List.append_nil], by simp⟩, ?_, ?_, ?_, ?_⟩
  · exact fun i hi => .inl ⟨by rw [hprog i hi, (hw i hi).1], hfresh i _ hi⟩
  · intro hlt
    rw [hmem] at hlt
    exact absurd hlt (Nat.lt_irrefl _)
  · intro hlast
    obtain ⟨l, hl, hv⟩ := h.mem (changedWord c 0)
    have hnil : l = [] := by
      refine Classical.byContradiction fun hne => ?_
      have hpos : 0 < l.length := List.length_pos_iff.2 hne
      obtain ⟨v, hv'⟩ := last_some (l := P.mem (changedWord c 0)) (by rw [hl, List.length_append]; omega)
      have h1 := hlast v hv'
      rw [hl, List.length_append, List.getElem?_append_right (by omega)] at hv'
      rw [hv v (List.mem_of_getElem? hv') rfl] at h1
      cases h1
    have hlen : (P.mem (changedWord c 0)).length = (M (changedWord c 0)).length := by rw [hl, hnil, List.append_nil]
    have hsame : ∀ w, IsFlag c w → P.mem w = M w := by
      intro w hf
      unfold IsFlag at hf
      rw [hc.size] at hf
      obtain ⟨x, y, d, hx, hy, hd, he⟩ := nidx_surj (w := c.w) (h := c.h) (l := c.levels) (i := w) hf
      obtain ⟨i, hi, rfl, rfl⟩ := hsurj x y hx hy
      have he' : w = c.ix (px i) (py i) d := he.symm
      have hown := h.own i w hi ⟨d, hd, he'⟩
      have hlt := hfresh i (changedWord c 0) hi
      have hrep : P.seen i w + 1 = (M w).length := by
        rcases (hw i hi).2 with h1 | h1
        · exfalso
          have hseen : P.seen i (changedWord c 0) < (P.mem (changedWord c 0)).length := by
            exact hok i (changedWord c 0) hi
          omega
        · rw [he']; exact h1 d hd
      obtain ⟨l', hl', -⟩ := h.mem w
      have : l'.length = 0 := by
        have := congrArg List.length hl'
        rw [List.length_append] at this
        omega
      rw [hl', List.length_eq_zero_iff.1 this, List.append_nil]
    intro x y d hav
    have hcur : ∀ x y d, avOf c (current 1 P.mem) x y d ↔ avOf c (current 1 M) x y d := by
      intro x y d
      unfold avOf
      refine and_congr_right fun hx => and_congr_right fun hy => and_congr_right fun hd => ?_
      unfold current
      rw [Nat.div_one, hsame _ (ix_flag hc hx hy hd)]
    obtain ⟨i, hi, rfl, rfl⟩ := hsurj x y hav.1 hav.2.1
    have hS := h.same hsame i hi
    rw [hk i hi] at hS
    have := hS d ((hcur _ _ _).1 hav)
    intro k' hk'
    obtain ⟨d2, ha, he⟩ := this k' hk'
    exact ⟨d2, (hcur _ _ _).2 ha, he⟩
  · rintro ⟨i, hi, he⟩
    exact absurd he (hret i hi)

/-- A load between the barriers. -/
theorem PhaseP.load (h : PhaseP c cl n px py f M P) {i w t : Nat} {k : Flags → Prog Unit} {v : Flags} (hi : i < n)
    (hp : P.prog i = .load w k) (hv : (P.mem w)[t]? = some v) (ht : P.seen i w ≤ t) :
    PhaseP c cl n px py f M
      { mem := P.mem, prog := setAt P.prog i (k v), seen := setAt P.seen i (setAt (P.seen i) w t) } := by
  have hlt := (List.getElem?_eq_some_iff.1 hv).1
  refine ⟨h.mem, h.zero, ?_, ?_, ?_, ?_⟩
  · intro j w' hj ho
    have hjo := h.own j w' hj ho
    dsimp only
    by_cases hij : j = i
    · subst hij
      rw [setAt_self]
      by_cases hw : w' = w
      · subst hw; rw [setAt_self]; omega
      · rw [setAt_ne _ _ hw]; exact hjo
    · rw [setAt_ne _ _ hij]; exact hjo
  · intro j w' hj
    have hjo := h.view j w' hj
    dsimp only
    by_cases hij : j = i
    · subst hij
      rw [setAt_self]
      by_cases hw : w' = w
      · subst hw; rw [setAt_self]; omega
      · rw [setAt_ne _ _ hw]; exact hjo
    · rw [setAt_ne _ _ hij]; exact hjo
  · intro j hj
    have hjo := h.work j hj
    dsimp only
    by_cases hij : j = i
    · subst hij
      rw [setAt_self, setAt_self]
      rw [hp] at hjo
      refine hjo t v ht fun ho => ?_
      have := h.own j w hj ho
      omega
    · rw [setAt_ne _ _ hij, setAt_ne _ _ hij]; exact hjo
  · intro hsame j hj
    have hjo := h.same hsame j hj
    dsimp only
    by_cases hij : j = i
    · subst hij
      rw [setAt_self, setAt_self]
      rw [hp] at hjo
      refine hjo t v ht fun hf => ?_
      have hm := hsame w hf
      have h1 := h.view j w hj
      dsimp only at hm
      rw [hm] at hv hlt
      have : t = (M w).length - 1 := by omega
      rw [this] at hv
      exact (current_last hv).symm
    · rw [setAt_ne _ _ hij, setAt_ne _ _ hij]; exact hjo

/-- A store between the barriers. -/
theorem PhaseP.store (hc : c.Valid) (hpx : ∀ i, i < n → px i < c.w ∧ py i < c.h)
    (hinj : ∀ i j, i < n → j < n → px i = px j → py i = py j → i = j)
    (h : PhaseP c cl n px py f M P) {i w : Nat} {k : Prog Unit} {v : Flags} (hi : i < n)
    (hp : P.prog i = .store w v k) (hok : ∀ i w, i < n → P.seen i w < (P.mem w).length) :
    PhaseP c cl n px py f M
      { mem := setAt P.mem w (P.mem w ++ [v]), prog := setAt P.prog i k
        seen := setAt P.seen i (setAt (P.seen i) w (P.mem w).length) } := by
  have hwork := h.work i hi
  rw [hp] at hwork
  have hle := hok i w hi
  refine ⟨?_, h.zero, ?_, ?_, ?_, ?_⟩
  · intro w'
    obtain ⟨l, hl, hv⟩ := h.mem w'
    dsimp only
    by_cases hw : w' = w
    · subst hw
      rw [setAt_self, hl, List.append_assoc]
      refine ⟨_, rfl, fun v' hv' he => ?_⟩
      rcases List.mem_append.1 hv' with h1 | h1
      · exact hv v' h1 he
      · rw [List.mem_singleton] at h1
        subst h1
        exact hwork.1.2 he
    · rw [setAt_ne _ _ hw]; exact ⟨l, hl, hv⟩
  · intro j w' hj ho
    have hjo := h.own j w' hj ho
    dsimp only
    by_cases hw : w' = w
    · subst hw
      have hij : j = i := by
        obtain ⟨d, hd, rfl⟩ := ho
        obtain ⟨d', hd', he⟩ := (hwork.1.1 (ix_flag hc (hpx j hj).1 (hpx j hj).2 hd)).2
        have := nidx_inj (hpx j hj).2 hd (hpx i hi).2 hd' he
        exact hinj j i hj hi this.1 this.2.1
      subst hij
      rw [setAt_self, setAt_self, setAt_self]
      simp
    · rw [setAt_ne P.mem _ hw]
      by_cases hij : j = i
      · subst hij; rw [setAt_self, setAt_ne _ _ hw]; exact hjo
      · rw [setAt_ne _ _ hij]; exact hjo
  · intro j w' hj
    have hjo := h.view j w' hj
    dsimp only
    by_cases hij : j = i
    · subst hij
      rw [setAt_self]
      by_cases hw : w' = w
      · subst hw; rw [setAt_self]; omega
      · rw [setAt_ne _ _ hw]; exact hjo
    · rw [setAt_ne _ _ hij]; exact hjo
  · intro j hj
    have hjo := h.work j hj
    dsimp only
    by_cases hij : j = i
    · subst hij
      rw [setAt_self, setAt_self]
      refine hwork.2 _ (Nat.le_of_lt hle) ?_
      obtain ⟨l, hl, -⟩ := h.mem w
      show (M w).length ≤ _
      rw [hl, List.length_append]; omega
    · rw [setAt_ne _ _ hij, setAt_ne _ _ hij]; exact hjo
  · intro hsame j hj
    have hnf : ¬ IsFlag c w := by
      intro hf
      have := hsame w hf
      dsimp only at this
      rw [setAt_self] at this
      have := congrArg List.length this
      obtain ⟨l, hl, -⟩ := h.mem w
      rw [hl] at this
      simp at this
    have hsame' : ∀ w', IsFlag c w' → P.mem w' = M w' := by
      intro w' hf
      have := hsame w' hf
      dsimp only at this
      rwa [setAt_ne _ _ (fun he : w' = w => hnf (he ▸ hf))] at this
    have hjo := h.same hsame' j hj
    dsimp only
    by_cases hij : j = i
    · subst hij
      rw [setAt_self, setAt_self]
      rw [hp] at hjo
      exact hjo.2 _ (Nat.le_of_lt hle) hnf
    · rw [setAt_ne _ _ hij, setAt_ne _ _ hij]; exact hjo

theorem Waits.set {i j : Nat} {p : Prog Unit} {mem : Nat → List Flags} {seen : Nat → View}
    (h : Waits c cl px py P f j) (hne : j ≠ i) : Waits c cl px py { mem := mem, prog := setAt P.prog i p, seen := seen } f j := by
  unfold Waits
  dsimp only
  rw [setAt_ne _ _ hne]
  exact h

/-- A load between rounds. -/
theorem PhaseA.load (h : PhaseA c cl n px py f M P) {i w t : Nat} {k : Flags → Prog Unit} {v : Flags} (hi : i < n)
    (hp : P.prog i = .load w k) (hv : (P.mem w)[t]? = some v) (ht : P.seen i w ≤ t) :
    PhaseA c cl n px py f M
      { mem := P.mem, prog := setAt P.prog i (k v), seen := setAt P.seen i (setAt (P.seen i) w t) } := by
  have hi' := h.prog i hi
  have hnw : ∀ {f' j}, Waits c cl px py P f' j → j ≠ i := by
    rintro f' j hw rfl
    unfold Waits at hw
    rw [hp] at hw
    cases hw
  have hcase : P.prog i = tail c (markOf c cl) (mkPixel (px i) (py i)) f ∧
      P.seen i (changedWord c 0) + 1 = (M (changedWord c 0)).length := by
    rcases hi' with h1 | h1 | h1 | ⟨f', -, h1, -⟩
    · exact h1
    · rw [hp] at h1; cases h1
    · rw [hp] at h1
      cases f with
      | zero => cases h1
      | succ f => rw [rounds_succ] at h1; cases h1
    · exact absurd rfl (hnw h1)
  obtain ⟨hpt, hseen⟩ := hcase
  have hpt' := hpt
  rw [hp] at hpt'
  unfold tail rdChanged at hpt'
  simp only [Prog.bind, Prog.load.injEq] at hpt'
  obtain ⟨rfl, rfl⟩ := hpt'
  have hstored : ∀ p, (M (changedWord c 0)).length < (P.mem (changedWord c 0)).length → ∃ j f', j < n ∧
      Waits c cl px py { mem := P.mem, prog := setAt P.prog i p, seen := setAt P.seen i (setAt (P.seen i) (changedWord c 0) t) } f' j := by
    intro p hlt
    obtain ⟨j, f', hj, hw⟩ := h.stored hlt
    exact ⟨j, f', hj, hw.set (hnw hw)⟩
  refine ⟨h.flags, h.step, ?_, hstored _, h.fact, ?_⟩
  · intro j hj
    dsimp only
    by_cases hij : j = i
    · subst hij
      rw [setAt_self]
      split
      · exact .inr (.inr (.inl rfl))
      · exact .inr (.inl rfl)
    · rcases h.prog j hj with ⟨h1, h2⟩ | h1 | h1 | ⟨f', hf, h1, h2⟩
      · exact .inl ⟨by rw [setAt_ne _ _ hij]; exact h1, by rw [setAt_ne _ _ hij]; exact h2⟩
      · exact .inr (.inl (by rw [setAt_ne _ _ hij]; exact h1))
      · exact .inr (.inr (.inl (by rw [setAt_ne _ _ hij]; exact h1)))
      · exact .inr (.inr (.inr ⟨f', hf, h1.set hij, h2⟩))
  · rintro ⟨j, hj, hret⟩
    dsimp only at hret
    by_cases hij : j = i
    · subst hij
      rw [setAt_self] at hret
      have hfalse : v (changedWord c 0) = false := by
        cases hb : v (changedWord c 0)
        · rfl
        · exfalso
          rw [hb] at hret
          simp only [if_true] at hret
          cases f with
          | zero => cases hret
          | succ f => rw [rounds_succ] at hret; cases hret
      by_cases hlt : t < (M (changedWord c 0)).length
      · left
        apply h.fact
        intro v' hv'
        obtain ⟨l, hl, -⟩ := h.step
        rw [hl, List.getElem?_append_left hlt] at hv
        have : t = (M (changedWord c 0)).length - 1 := by omega
        rw [← this, hv] at hv'
        simp at hv'
        rw [← hv', hfalse]
      · right
        apply hstored
        have := (List.getElem?_eq_some_iff.1 hv).1
        omega
    · rw [setAt_ne _ _ hij] at hret
      rcases h.done ⟨j, hj, hret⟩ with h1 | ⟨j', f', hj', hw⟩
      · exact .inl h1
      · exact .inr ⟨j', f', hj', hw.set (hnw hw)⟩

/-- A store between rounds. -/
theorem PhaseA.store (h : PhaseA c cl n px py f M P) {i w : Nat} {k : Prog Unit} {v : Flags} (hi : i < n)
    (hp : P.prog i = .store w v k) :
    PhaseA c cl n px py f M
      { mem := setAt P.mem w (P.mem w ++ [v]), prog := setAt P.prog i k
        seen := setAt P.seen i (setAt (P.seen i) w (P.mem w).length) } := by
  obtain ⟨f', rfl, rfl, rfl, rfl⟩ : ∃ f', f = f' + 1 ∧ w = changedWord c 0 ∧ v = (fun _ => false) ∧
      k = .barrier (mid c (markOf c cl) (mkPixel (px i) (py i)) f') := by
    rcases h.prog i hi with ⟨h1, -⟩ | h1 | h1 | ⟨f', -, h1, -⟩
    · rw [hp] at h1; unfold tail rdChanged at h1; simp [Prog.bind] at h1
    · rw [hp] at h1; cases h1
    · rw [hp] at h1
      cases f with
      | zero => cases h1
      | succ f =>
        rw [rounds_succ] at h1
        simp only [Prog.store.injEq] at h1
        exact ⟨f, rfl, h1.1, h1.2.1, h1.2.2⟩
    · unfold Waits at h1; rw [hp] at h1; cases h1
  have hlen : (M (changedWord c 0)).length < (P.mem (changedWord c 0) ++ [fun _ => false]).length := by
    obtain ⟨l, hl, -⟩ := h.step
    rw [hl]; simp
  have hwait : ∃ j f'', j < n ∧ Waits c cl px py
      { mem := setAt P.mem (changedWord c 0) (P.mem (changedWord c 0) ++ [fun _ => false])
        prog := setAt P.prog i (.barrier (mid c (markOf c cl) (mkPixel (px i) (py i)) f'))
        seen := setAt P.seen i (setAt (P.seen i) (changedWord c 0) (P.mem (changedWord c 0)).length) } f'' j :=
    ⟨i, f', hi, by unfold Waits; dsimp only; rw [setAt_self]⟩
  refine ⟨?_, ?_, ?_, fun _ => hwait, h.fact, fun _ => .inr hwait⟩
  · intro w hf
    dsimp only
    rw [setAt_ne _ _ (fun he : w = changedWord c 0 => changed_notFlag c 0 (he ▸ hf))]
    exact h.flags w hf
  · obtain ⟨l, hl, hv⟩ := h.step
    dsimp only
    rw [setAt_self, hl, List.append_assoc]
    refine ⟨_, rfl, fun v' hv' => ?_⟩
    rcases List.mem_append.1 hv' with h1 | h1
    · exact hv v' h1
    · rw [List.mem_singleton] at h1
      subst h1
      rfl
  · intro j hj
    dsimp only
    rw [setAt_self P.mem]
    by_cases hij : j = i
    · subst hij
      exact .inr (.inr (.inr ⟨f', rfl, by unfold Waits; dsimp only; rw [setAt_self], hlen⟩))
    · rcases h.prog j hj with ⟨h1, h2⟩ | h1 | h1 | ⟨f', hf, h1, h2⟩
      · exact .inl ⟨by rw [setAt_ne _ _ hij]; exact h1, by rw [setAt_ne _ _ hij]; exact h2⟩
      · exact .inr (.inl (by rw [setAt_ne _ _ hij]; exact h1))
      · exact .inr (.inr (.inl (by rw [setAt_ne _ _ hij]; exact h1)))
      · exact .inr (.inr (.inr ⟨f', hf, h1.set hij, hlen⟩))

/-- A store before the first barrier. -/
theorem PhaseS.store (h : PhaseS c cl n px py m P) {i w : Nat} {k : Prog Unit} {v : Flags} (hi : i < n)
    (hp : P.prog i = .store w v k) :
    PhaseS c cl n px py m
      { mem := setAt P.mem w (P.mem w ++ [v]), prog := setAt P.prog i k
        seen := setAt P.seen i (setAt (P.seen i) w (P.mem w).length) } := by
  have hcase : ∃ a, w = changedWord c a ∧ v = (fun _ => false) ∧
      (k = .store (changedWord c 1) (fun _ => false) (rounds c (markOf c cl) (mkPixel (px i) (py i)) (roundsLimit c)) ∨
       k = rounds c (markOf c cl) (mkPixel (px i) (py i)) (roundsLimit c) ∨
       (a = 0 ∧ k = .barrier (mid c (markOf c cl) (mkPixel (px i) (py i)) (c.nodesAvailability.size + 1)))) := by
    rcases h.prog i hi with h1 | h1 | h1 | ⟨h1, -⟩
    · rw [hp] at h1; cases h1; exact ⟨0, rfl, rfl, .inl rfl⟩
    · rw [hp] at h1; cases h1; exact ⟨1, rfl, rfl, .inr (.inl rfl)⟩
    · rw [hp] at h1
      change _ = rounds _ _ _ (_ + 1 + 1) at h1
      rw [rounds_succ] at h1
      simp only [Prog.store.injEq] at h1
      exact ⟨0, h1.1, h1.2.1, .inr (.inr ⟨rfl, h1.2.2⟩)⟩
    · unfold Waits at h1; rw [hp] at h1; cases h1
  obtain ⟨a, rfl, rfl, hk⟩ := hcase
  have hle : (P.mem (changedWord c 0)).length ≤
      (setAt P.mem (changedWord c a) (P.mem (changedWord c a) ++ [fun _ => false]) (changedWord c 0)).length := by
    by_cases ha : changedWord c 0 = changedWord c a
    · rw [← ha, setAt_self]; simp
    · rw [setAt_ne _ _ ha]
  refine ⟨?_, ?_, ?_⟩
  · intro w hf
    dsimp only
    rw [setAt_ne _ _ (fun he : w = changedWord c a => changed_notFlag c a (he ▸ hf))]
    exact h.flags w hf
  · obtain ⟨l, hl, hv⟩ := h.step
    dsimp only
    by_cases ha : changedWord c 0 = changedWord c a
    · rw [← ha, setAt_self, hl]
      refine ⟨_, rfl, fun v' hv' => ?_⟩
      rcases List.mem_append.1 hv' with h1 | h1
      · exact hv v' h1
      · rw [List.mem_singleton] at h1
        subst h1
        rfl
    · rw [setAt_ne _ _ ha]; exact ⟨l, hl, hv⟩
  · intro j hj
    dsimp only
    by_cases hij : j = i
    · subst hij
      unfold Waits
      dsimp only
      rw [setAt_self]
      rcases hk with h1 | h1 | ⟨rfl, h1⟩
      · exact .inr (.inl h1)
      · exact .inr (.inr (.inl h1))
      · refine .inr (.inr (.inr ⟨h1, ?_⟩))
        obtain ⟨l, hl, -⟩ := h.step
        rw [setAt_self, hl]
        simp
    · rcases h.prog j hj with h1 | h1 | h1 | ⟨h1, h2⟩
      · exact .inl (by rw [setAt_ne _ _ hij]; exact h1)
      · exact .inr (.inl (by rw [setAt_ne _ _ hij]; exact h1))
      · exact .inr (.inr (.inl (by rw [setAt_ne _ _ hij]; exact h1)))
      · exact .inr (.inr (.inr ⟨h1.set hij, Nat.lt_of_lt_of_le h2 hle⟩))

end
end Gpu

open Gpu
variable {kernel : Kernel F} {cl : Bool} {d d' : Device F} {P : Pool Unit}

/-- The launch is in one of the phases. -/
theorem launch_phase {px py : Nat → Nat} (hcov : CoversAt kernel cl d.graph px py) (hk : Covers kernel cl) (hc : d.graph.Valid)
    (hp : d.graph.Proper) (hg : ∀ i j, i < d.items → j < d.items → group i = group j)
    (hs : Steps fresh group d.items (d.launch kernel) P) :
    PhaseS d.graph cl d.items px py d.flags P ∨ (∃ f M, PhaseP d.graph cl d.items px py f M P) ∨
      ∃ f M, PhaseA d.graph cl d.items px py f M P := by
  have hpos : 0 < d.items := by
    rw [d.items_eq hc]; exact Nat.mul_pos hc.graph.width_pos hc.graph.height_pos
  have hpx : ∀ i, i < d.items → px i < d.graph.w ∧ py i < d.graph.h := by
    intro i hi
    rw [d.items_eq hc] at hi
    exact ⟨(hcov.item i hi).1, (hcov.item i hi).2.1⟩
  have hsurj : ∀ x y, x < d.graph.w → y < d.graph.h → ∃ i, i < d.items ∧ px i = x ∧ py i = y := by
    intro x y hx hy
    rw [d.items_eq hc]
    exact hcov.surj x y hx hy
  have hinj : ∀ i j, i < d.items → j < d.items → px i = px j → py i = py j → i = j := by
    intro i j hi hj
    rw [d.items_eq hc] at hi hj
    exact hcov.inj i j hi hj
  generalize hst : d.launch kernel = P0 at hs
  induction hs with
  | refl =>
    subst hst
    refine .inl ⟨fun _ _ => rfl, ⟨[], rfl, by simp⟩, fun i hi => ?_⟩
    rw [d.items_eq hc] at hi
    have hit := (hcov.item i hi).2.2
    change kernel d.graph (UInt64.ofNat i) = _ ∨ kernel d.graph (UInt64.ofNat i) = _ ∨
      kernel d.graph (UInt64.ofNat i) = _ ∨ _
    generalize kernel d.graph (UInt64.ofNat i) = p at hit
    cases hit with
    | cl => exact .inl rfl
    | cuda => exact .inr (.inr (.inl rfl))
  | @step Q R h h' ih =>
    subst hst
    have hok := fun i w hi => h.ok (Pool.start_ok _ _) i w hi
    cases h' with
    | @load i w t k v hi hpr hv ht hf =>
      rcases ih with h1 | ⟨f, M, h1⟩ | ⟨f, M, h1⟩
      · exfalso
        rcases h1.prog i hi with h1 | h1 | h1 | ⟨h1, -⟩
        · rw [hpr] at h1; cases h1
        · rw [hpr] at h1; cases h1
        · rw [hpr] at h1
          change _ = rounds _ _ _ (_ + 1 + 1) at h1
          rw [rounds_succ] at h1; cases h1
        · unfold Waits at h1; rw [hpr] at h1; cases h1
      · exact .inr (.inl ⟨f, M, h1.load hi hpr hv ht⟩)
      · exact .inr (.inr ⟨f, M, h1.load hi hpr hv ht⟩)
    | @store i w k v hi hpr =>
      rcases ih with h1 | ⟨f, M, h1⟩ | ⟨f, M, h1⟩
      · exact .inl (h1.store hi hpr)
      · exact .inr (.inl ⟨f, M, h1.store hc hpx hinj hi hpr hok⟩)
      · exact .inr (.inr ⟨f, M, h1.store hi hpr⟩)
    | @barrier γ k seen hne hpr hle hex hout =>
      obtain ⟨i0, hi0, hγ⟩ := hne
      have hall : ∀ i, i < d.items → group i = γ := fun i hi => (hg i i0 hi hi0).trans hγ
      have hpr' : ∀ i, i < d.items → Q.prog i = .barrier (k i) := fun i hi => hpr i hi (hall i hi)
      have hfresh : ∀ i w, i < d.items → seen i w + 1 = (Q.mem w).length := by
        intro i w hi
        obtain ⟨j, hj, hl⟩ := latest hpos h w
        have h1 := hle i j w hi (hall i hi) hj (hall j hj)
        obtain ⟨j', hj', -, he⟩ := hex i w hi (hall i hi)
        have := hok j' w hj'
        omega
      have hnode : ∀ x y dd, avOf d.graph (current 1 Q.mem) x y dd → d.graph.disparityGraph.IsNode x y dd := by
        intro x y dd hav
        apply hp
        refine ⟨hav.1, hav.2.1, hav.2.2.1, ?_⟩
        obtain ⟨t, v, hv, _, hcur⟩ := current_get (B := 1) h (d.graph.ix x y dd)
        have h1 := hav.2.2.2
        rw [hcur _ (Nat.div_one _)] at h1
        rcases (launch_clear hk hc h).1 _ t v (ix_flag hc hav.1 hav.2.1 hav.2.2.1) hv with ⟨_, h⟩ | ⟨_, h, _⟩
        · rw [h] at h1; exact h1
        · rw [h] at h1; cases h1
      have hnext : ∀ i, i < d.items → (if i < d.items ∧ group i = γ then k i else Q.prog i) = k i :=
        fun i hi => if_pos ⟨hi, hall i hi⟩
      rcases ih with h1 | ⟨f, M, h1⟩ | ⟨f, M, h1⟩
      · have hw : ∀ i, i < d.items → k i = mid d.graph (markOf d.graph cl) (mkPixel (px i) (py i)) (d.graph.nodesAvailability.size + 1) ∧
            1 < (Q.mem (changedWord d.graph 0)).length := by
          intro i hi
          rcases h1.prog i hi with h2 | h2 | h2 | ⟨h2, h3⟩
          · rw [hpr' i hi] at h2; cases h2
          · rw [hpr' i hi] at h2; cases h2
          · rw [hpr' i hi] at h2
            change _ = rounds _ _ _ (_ + 1 + 1) at h2
            rw [rounds_succ] at h2; cases h2
          · unfold Waits at h2; rw [hpr' i hi, Prog.barrier.injEq] at h2; exact ⟨h2, h3⟩
        refine .inr (.inl ⟨_, Q.mem, PhaseP.begin (f := d.graph.nodesAvailability.size + 1) hc hpx hnode ?_ rfl hfresh ?_⟩)
        · intro v hv
          obtain ⟨l, hl, hf⟩ := h1.step
          have := (hw 0 hpos).2
          rw [hl] at hv this
          simp at this
          rw [show (d.flags :: l).length - 1 = (l.length - 1) + 1 by simp; omega, List.getElem?_cons_succ] at hv
          exact hf v (List.mem_of_getElem? hv)
        · exact fun i hi => (hnext i hi).trans (hw i hi).1
      · exact .inr (.inr ⟨f, Q.mem, PhaseA.begin hc hsurj h1 hpr' hok rfl hfresh hnext⟩)
      · have hw : ∀ i, i < d.items → ∃ f', f = f' + 1 ∧ k i = mid d.graph (markOf d.graph cl) (mkPixel (px i) (py i)) f' ∧
            (M (changedWord d.graph 0)).length < (Q.mem (changedWord d.graph 0)).length := by
          intro i hi
          rcases h1.prog i hi with ⟨h2, -⟩ | h2 | h2 | ⟨f', hf, h2, h3⟩
          · rw [hpr' i hi] at h2; unfold tail rdChanged at h2; simp [Prog.bind] at h2
          · rw [hpr' i hi] at h2; cases h2
          · rw [hpr' i hi] at h2
            cases f with
            | zero => cases h2
            | succ f => rw [rounds_succ] at h2; cases h2
          · unfold Waits at h2; rw [hpr' i hi, Prog.barrier.injEq] at h2; exact ⟨f', hf, h2, h3⟩
        obtain ⟨f', rfl, -, hlen⟩ := hw 0 hpos
        refine .inr (.inl ⟨f', Q.mem, PhaseP.begin hc hpx hnode ?_ rfl hfresh ?_⟩)
        · intro v hv
          obtain ⟨l, hl, hf⟩ := h1.step
          rw [hl, List.length_append] at hlen
          rw [hl, List.length_append, List.getElem?_append_right (by omega)] at hv
          exact hf v (List.mem_of_getElem? hv)
        · intro i hi
          obtain ⟨f'', hf, hki, -⟩ := hw i hi
          have : f' = f'' := by omega
          subst this
          exact (hnext i hi).trans hki

/-- If there is only one work group and all items return, then the flags that are left are arc consistent. -/
theorem LaunchTo.oneGroup (hk : Covers kernel cl) (hc : d.graph.Valid) (hp : d.graph.Proper)
    (hg : ∀ i j, i < d.items → j < d.items → group i = group j) (h : LaunchTo kernel group d d') :
    ArcConsistent d'.graph.w d'.graph.h d'.graph.E d'.graph.Av := by
  obtain ⟨P, hs, hr, rfl⟩ := h
  obtain ⟨px, py, hcov⟩ := hk _ hc
  have hpos : 0 < d.items := by
    rw [d.items_eq hc]; exact Nat.mul_pos hc.graph.width_pos hc.graph.height_pos
  have h0 := hr 0 hpos
  rcases launch_phase hcov hk hc hp hg hs with h1 | ⟨f, M, h1⟩ | ⟨f, M, h1⟩
  · exfalso
    rcases h1.prog 0 hpos with h2 | h2 | h2 | ⟨h2, -⟩
    · rw [h0] at h2; cases h2
    · rw [h0] at h2; cases h2
    · rw [h0] at h2
      change _ = rounds _ _ _ (_ + 1 + 1) at h2
      rw [rounds_succ] at h2; cases h2
    · unfold Waits at h2; rw [h0] at h2; cases h2
  · exfalso
    have := h1.work 0 hpos
    rw [h0] at this
    exact this
  · rcases h1.done ⟨0, hpos, h0⟩ with h2 | ⟨j, f', hj, hw⟩
    · have hcur : ∀ x y dd, (d.withFlags (current 1 P.mem)).graph.Av x y dd ↔ avOf d.graph (current 1 M) x y dd := by
        intro x y dd
        refine (withFlags_av hc _ x y dd).trans ?_
        unfold avOf
        refine and_congr_right fun hx => and_congr_right fun hy => and_congr_right fun hd => ?_
        unfold current
        rw [Nat.div_one]
        rw [h1.flags _ (ix_flag hc hx hy hd)]
      intro x y dd hav k hk
      obtain ⟨d2, ha, he⟩ := h2 x y dd ((hcur _ _ _).1 hav) k hk
      exact ⟨d2, (hcur _ _ _).2 ha, he⟩
    · exfalso
      unfold Waits at hw
      rw [hr j hj] at hw
      cases hw

end SP
