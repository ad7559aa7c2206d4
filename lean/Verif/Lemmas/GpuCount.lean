import Verif.Lemmas.GpuItem
/-!
# How many times something is stored
-/
set_option linter.unusedSectionVars false

namespace SP
open FloatOps ConstraintGraph
variable {F : Type} [FloatOps F] {c c' : ConstraintGraph F} {n : Nat} {fresh : Bool} {group : Nat → Nat} {α β : Type}
  {e : Env} {w0 : Nat}

/-- The value is true in the word `w0`. -/
def cost (w0 w : Nat) (v : Flags) : Nat := if w = w0 ∧ v w0 = true then 1 else 0

/-- The program stores `true` in the word `w0` not more than given number of times, and what is left of this number when it returns
satisfies `Q`. -/
def Budget (e : Env) (w0 : Nat) : Prog α → View → Nat → (α → View → Nat → Prop) → Prop
  | .ret a, s, K, Q => Q a s K
  | .fail _, _, _, _ => True
  | .load w k, s, K, Q => ∀ t v, s w ≤ t → e.R s w t v → Budget e w0 (k v) (setAt s w t) K Q
  | .store w v k, s, K, Q => cost w0 w v ≤ K ∧
      ∀ t, s w ≤ t → e.St w t v → Budget e w0 k (setAt s w t) (K - cost w0 w v) Q
  | .barrier k, s, K, Q => ∀ s', s.le s' → Budget e w0 k s' K Q

theorem Budget.mono {p : Prog α} {s : View} {K : Nat} {Q Q' : α → View → Nat → Prop} (h : Budget e w0 p s K Q)
    (hq : ∀ a s' K', s.le s' → Q a s' K' → Q' a s' K') : Budget e w0 p s K Q' := by
  induction p generalizing s K with
  | ret a => exact hq a s K (View.le_refl s) h
  | fail er => trivial
  | load w k ih =>
    intro t v ht hv
    exact ih v (h t v ht hv) fun a s' K' hs => hq a s' K' (View.le_trans (View.le_set ht) hs)
  | store w v k ih =>
    refine ⟨h.1, fun t ht hv => ?_⟩
    exact ih (h.2 t ht hv) fun a s' K' hs => hq a s' K' (View.le_trans (View.le_set ht) hs)
  | barrier k ih => exact fun s' hs => ih (h s' hs) fun a s'' K' hs' => hq a s'' K' (View.le_trans hs hs')

theorem Budget.bind {p : Prog α} {f : α → Prog β} {s : View} {K : Nat} {Q : β → View → Nat → Prop}
    (h : Budget e w0 p s K fun a s' K' => Budget e w0 (f a) s' K' Q) : Budget e w0 (p.bind f) s K Q := by
  induction p generalizing s K with
  | ret a => exact h
  | fail er => trivial
  | load w k ih => exact fun t v ht hv => ih v (h t v ht hv)
  | store w v k ih => exact ⟨h.1, fun t ht hv => ih (h.2 t ht hv)⟩
  | barrier k ih => exact fun s' hs => ih (h s' hs)

/-- A program that does not store in the word costs nothing. -/
theorem Budget.of_wp {p : Prog α} {s : View} {K : Nat} {Q : α → View → Prop}
    (h : Wp { e with G := fun w _ => w ≠ w0 } p s Q) : Budget e w0 p s K fun a s' K' => Q a s' ∧ K' = K := by
  induction p generalizing s with
  | ret a => exact ⟨h, rfl⟩
  | fail er => trivial
  | load w k ih => exact fun t v ht hv => ih v (h t v ht hv)
  | store w v k ih =>
    have hz : cost w0 w v = 0 := by
      unfold cost; rw [if_neg]; exact fun hh => h.1 hh.1
    refine ⟨by omega, fun t ht hst => ?_⟩
    rw [hz]
    exact ih (h.2 t ht hst)
  | barrier k ih => exact fun s' hs => ih (h s' hs)

/-! ## Sums -/

def sumTo (K : Nat → Nat) : Nat → Nat
  | 0 => 0
  | n + 1 => sumTo K n + K n

theorem sumTo_congr {K L : Nat → Nat} (h : ∀ i, i < n → K i = L i) : sumTo K n = sumTo L n := by
  induction n with
  | zero => rfl
  | succ n ih => simp only [sumTo]; rw [ih fun i hi => h i (by omega), h n (by omega)]

theorem sumTo_set {K : Nat → Nat} {i b : Nat} (hi : i < n) : sumTo (setAt K i b) n + K i = sumTo K n + b := by
  induction n with
  | zero => omega
  | succ n ih =>
    simp only [sumTo]
    by_cases h : i = n
    · subst h
      have : sumTo (setAt K i b) i = sumTo K i := sumTo_congr fun j hj => setAt_ne _ _ (by omega)
      rw [this, setAt_self]; omega
    · have := ih (by omega)
      rw [setAt_ne K b (show n ≠ i by omega)]; omega

theorem sumTo_le {K : Nat → Nat} {L : Nat} (h : ∀ i, i < n → K i ≤ L) : sumTo K n ≤ n * L := by
  induction n with
  | zero => simp [sumTo]
  | succ n ih =>
    simp only [sumTo, Nat.succ_mul]
    have := ih fun i hi => h i (by omega)
    have := h n (by omega)
    omega

/-! ## Executions -/

/-- How many values of the word are true. -/
def trues (w0 : Nat) (l : List Flags) : Nat := l.countP fun v => v w0

theorem trues_append (l : List Flags) (v : Flags) : trues w0 (l ++ [v]) = trues w0 l + cost w0 w0 v := by
  unfold trues cost
  rw [List.countP_append]
  simp [List.countP_cons]

/-- All the workers together store `true` not more times than they are allowed to. -/
theorem Steps.budget {P P' : Pool α} {Q : Nat → α → View → Nat → Prop} {K : Nat → Nat} (h : Steps fresh group n P P')
    (hP : P.Ok n)
    (hR : ∀ P'', Steps fresh group n P P'' → ∀ s w t v, (P''.mem w)[t]? = some v → e.R s w t v)
    (hSt : ∀ w t v, (P.mem w).length ≤ t → e.St w t v)
    (hw : ∀ i, i < n → Budget e w0 (P.prog i) (P.seen i) (K i) (Q i)) :
    ∃ K', (∀ i, i < n → Budget e w0 (P'.prog i) (P'.seen i) (K' i) (Q i)) ∧
      trues w0 (P'.mem w0) + sumTo K' n ≤ trues w0 (P.mem w0) + sumTo K n := by
  induction h with
  | refl => exact ⟨K, hw, Nat.le_refl _⟩
  | @step P' P'' h h' ih =>
    obtain ⟨K', hb, hsum⟩ := ih
    have hok := h.ok hP
    have hgr := fun w => h.mem_grows w
    have hR' := hR P' h
    cases h' with
    | @load i w t k v hi hpi hv ht hf =>
      refine ⟨K', ?_, hsum⟩
      intro j hj
      by_cases hji : j = i
      · subst hji
        have := hb j hj
        rw [hpi] at this
        simpa using this t v ht (hR' _ w t v hv)
      · simpa [setAt_ne _ _ hji] using hb j hj
    | @store i w k v hi hpi =>
      have hpi' := hb i hi
      rw [hpi] at hpi'
      refine ⟨setAt K' i (K' i - cost w0 w v), ?_, ?_⟩
      · intro j hj
        by_cases hji : j = i
        · subst hji
          simp only [setAt_self]
          obtain ⟨l, hl⟩ := hgr w
          exact hpi'.2 _ (Nat.le_of_lt (hok j w hj)) (hSt _ _ _ (by rw [hl]; simp))
        · simpa [setAt_ne _ _ hji] using hb j hj
      · have h1 := sumTo_set (K := K') (b := K' i - cost w0 w v) hi
        have h2 := hpi'.1
        have h3 : trues w0 (setAt P'.mem w (P'.mem w ++ [v]) w0) = trues w0 (P'.mem w0) + cost w0 w v := by
          by_cases hw0 : w = w0
          · subst hw0
            simp only [setAt_self]
            exact trues_append _ _
          · rw [setAt_ne _ _ (Ne.symm hw0)]
            unfold cost
            rw [if_neg fun hh => hw0 hh.1]
            rfl
        simp only [h3]
        omega
    | @barrier γ k seen hne hpi hle hex hout =>
      refine ⟨K', ?_, hsum⟩
      intro j hj
      have hpj := hb j hj
      by_cases hg : group j = γ
      · rw [hpi j hj hg] at hpj
        simp only [hj, hg, and_self, if_true]
        exact hpj _ fun w => hle j j w hj hg hj hg
      · simpa [hg, hout j fun h => hg h.2] using hpj

namespace Gpu
variable {s : View} {fuel K : Nat} {cl : Bool} {x y : Nat}

/-- How many nodes of the pixel have not been removed by its work item. -/
def left (c : ConstraintGraph F) (x y : Nat) (s : View) : Nat :=
  (List.range c.levels).countP fun d => s (c.ix x y d) == 0

theorem left_le (c : ConstraintGraph F) (x y : Nat) (s : View) : left c x y s ≤ c.levels := by
  unfold left
  exact Nat.le_trans List.countP_le_length (by simp)

theorem left_mono {s s' : View} (h : s.le s') : left c x y s' ≤ left c x y s := by
  unfold left
  refine List.countP_mono_left fun d _ hd => ?_
  simp only [beq_iff_eq] at hd ⊢
  have := h (c.ix x y d)
  omega

theorem left_lt {s s' : View} (h : s.le s') {d : Nat} (hd : d < c.levels) (h0 : s (c.ix x y d) = 0)
    (h1 : 1 ≤ s' (c.ix x y d)) : left c x y s' + 1 ≤ left c x y s := by
  unfold left
  have key : ∀ l : List Nat, d ∈ l → (l.countP fun d => s' (c.ix x y d) == 0) + 1 ≤ l.countP fun d => s (c.ix x y d) == 0 := by
    intro l hl
    obtain ⟨a, b, rfl⟩ := List.append_of_mem hl
    have hm : ∀ l : List Nat, (l.countP fun d => s' (c.ix x y d) == 0) ≤ l.countP fun d => s (c.ix x y d) == 0 :=
      fun l => List.countP_mono_left fun d _ hd => by
        simp only [beq_iff_eq] at hd ⊢
        have := h (c.ix x y d)
        omega
    have e1 : (s (c.ix x y d) == 0) = true := by simp [h0]
    have e2 : (s' (c.ix x y d) == 0) = false := by simp; omega
    simp only [List.countP_append, List.countP_cons, e1, e2]
    have := hm a
    have := hm b
    simp
    omega
  exact key _ (List.mem_range.2 hd)

/-- A work item reports a change not more times than there are nodes in its pixel. -/
theorem rounds_budget (hc : c.Valid) (hx : x < c.w) (hy : y < c.h) {A : Flags}
    (hR : ∀ s w t v, e.R s w t v → IsFlag c w → v w = true → A w = true ∧ t = 0) (hSt : ∀ w t v, e.St w t v → 1 ≤ t)
    (hK : left c x y s ≤ K) :
    Budget e (changedWord c 0) (rounds c (markOf c cl) (mkPixel x y) fuel) s K fun _ _ _ => True := by
  induction fuel generalizing s K with
  | zero => trivial
  | succ fuel ih =>
    rw [rounds_succ]
    have hcost : cost (changedWord c 0) (changedWord c 0) (fun _ => false) = 0 := by simp [cost]
    have hcost1 : cost (changedWord c 0) (changedWord c 0) (fun _ => true) = 1 := by simp [cost]
    have hcost2 : cost (changedWord c 0) (changedWord c 1) (fun _ => true) = 0 := by simp [cost, changedWord]
    refine ⟨by omega, fun t ht _ s' hs' => ?_⟩
    rw [hcost, Nat.sub_zero]
    have hss : s.le s' := View.le_trans (View.le_set ht) hs'
    have hproc := processPixel_clear (e := { e with G := fun w _ => w ≠ changedWord c 0 }) (s := s') (A := A) hc hx hy hR hSt
      (fun w v hf _ _ => by unfold changedWord; show w ≠ _; have : w < c.nodesAvailability.size := hf; omega)
    have hlast : ∀ s3 K3, left c x y s3 ≤ K3 →
        Budget e (changedWord c 0) (.barrier (tail c (markOf c cl) (mkPixel x y) fuel)) s3 K3 fun _ _ _ => True := by
      intro s3 K3 h3 s4 hs4 t4 v4 ht4 _
      simp only [prog_ret_bind]
      split
      · exact ih (Nat.le_trans (left_mono (View.le_trans hs4 (View.le_set ht4))) h3)
      · trivial
    refine Budget.bind ((Budget.of_wp (K := K) hproc).mono ?_)
    rintro ch s2 K2 hs2 ⟨h1, rfl⟩
    cases ch
    · refine hlast _ _ ?_
      exact Nat.le_trans (left_mono (View.le_trans hss hs2)) hK
    · obtain ⟨d, hd, -, -, h2, h3⟩ := h1 rfl
      have h4 := left_lt (c := c) (x := x) (y := y) hs2 hd h2 h3
      have h5 := left_mono (c := c) (x := x) (y := y) hss
      simp only [if_true]
      cases cl
      · refine ⟨by rw [hcost1]; omega, fun t' ht' _ => hlast _ _ ?_⟩
        rw [hcost1]
        have := left_mono (c := c) (x := x) (y := y) (View.le_set ht')
        omega
      · refine ⟨by rw [hcost1]; omega, fun t' ht' _ => ⟨by omega, fun t2 ht2 _ => hlast _ _ ?_⟩⟩
        rw [hcost1, hcost2]
        have := left_mono (c := c) (x := x) (y := y) (View.le_set ht')
        have := left_mono (c := c) (x := x) (y := y) (View.le_set ht2)
        omega

theorem item_budget {p : Prog Unit} (hp : IsItem c x y cl p) (hc : c.Valid) (hx : x < c.w) (hy : y < c.h) {A : Flags}
    (hR : ∀ s w t v, e.R s w t v → IsFlag c w → v w = true → A w = true ∧ t = 0) (hSt : ∀ w t v, e.St w t v → 1 ≤ t) :
    Budget e (changedWord c 0) p s c.levels fun _ _ _ => True := by
  cases hp with
  | cl =>
    refine ⟨by simp [cost], fun _ _ _ => ⟨by simp [cost], fun _ _ _ => ?_⟩⟩
    have h1 : cost (changedWord c 0) (changedWord c 0) (fun _ => false) = 0 := by simp [cost]
    have h2 : cost (changedWord c 0) (changedWord c 1) (fun _ => false) = 0 := by simp [cost]
    rw [h1, h2]
    exact rounds_budget (cl := true) hc hx hy hR hSt (left_le _ _ _ _)
  | cuda => exact rounds_budget (cl := false) hc hx hy hR hSt (left_le _ _ _ _)

/-! ## The number of rounds -/

theorem trues_drop {l : List Flags} {t a : Nat} {v : Flags} (hv : l[t]? = some v) (h : v w0 = true) (ha : a ≤ t) :
    trues w0 (l.drop (t + 1)) + 1 ≤ trues w0 (l.drop a) := by
  obtain ⟨hlt, he⟩ := List.getElem?_eq_some_iff.1 hv
  have e1 : l.drop a = (l.drop a).take (t - a) ++ l.drop t := by
    conv => lhs; rw [← List.take_append_drop (t - a) (l.drop a)]
    rw [List.drop_drop]
    congr 2
    omega
  have e2 : l.drop t = v :: l.drop (t + 1) := by rw [List.drop_eq_getElem_cons hlt, he]
  unfold trues
  rw [e1, List.countP_append, e2, List.countP_cons, if_pos h]
  omega

theorem trues_drop_le {l : List Flags} {a b : Nat} (h : a ≤ b) : trues w0 (l.drop b) ≤ trues w0 (l.drop a) := by
  obtain ⟨k, rfl⟩ := Nat.exists_eq_add_of_le h
  rw [← List.drop_drop]
  exact (List.drop_sublist k (l.drop a)).countP_le

/-- A work item goes on only as long as changes are reported by someone. -/
theorem rounds_count (hc : c.Valid) (hx : x < c.w) (hy : y < c.h) {l : List Flags}
    (hR : ∀ s t v, e.R s (changedWord c 0) t v → l[t]? = some v)
    (hSt : ∀ t v, e.St (changedWord c 0) t v → l[t]? = some v) (hG : ∀ w v, e.G w v)
    (hf : trues (changedWord c 0) (l.drop (s (changedWord c 0) + 1)) + 1 ≤ fuel) :
    Wp e (rounds c (markOf c cl) (mkPixel x y) fuel) s fun _ _ => True := by
  induction fuel generalizing s with
  | zero => omega
  | succ fuel ih =>
    rw [rounds_succ]
    refine ⟨hG _ _, fun t ht hst s1 hs1 => ?_⟩
    have ht0 := hSt t _ hst
    have hproc : Wp e (Par.cspProcessPixel 1 c (mkPixel x y)) s1 fun _ _ => True := by
      refine cspProcessPixel_wp hc hx hy (fun _ _ _ => True) trivial ?_ (fun _ _ _ _ => trivial)
      intro d ch s2 _ hn _
      refine (shouldRemoveNode_wp hc hn).mono ?_
      intro b s3 _ _
      cases b
      · simp
      · simp only [if_true]
        exact fun _ _ _ _ => ⟨hG _ _, fun _ _ _ => trivial⟩
    have hlast : ∀ s3, t ≤ s3 (changedWord c 0) →
        Wp e (.barrier (tail c (markOf c cl) (mkPixel x y) fuel)) s3 fun _ _ => True := by
      intro s3 h3 s4 hs4 t4 v4 ht4 hv4
      simp only [prog_ret_bind]
      split
      · rename_i hagain
        have hv := hR _ _ _ hv4
        have h5 := hs4 (changedWord c 0)
        have hne : t4 ≠ t := by
          rintro rfl
          rw [ht0] at hv
          simp only [Option.some.injEq] at hv
          rw [← hv] at hagain
          cases hagain
        refine ih ?_
        rw [setAt_self]
        have := trues_drop hv hagain (show s (changedWord c 0) + 1 ≤ t4 by omega)
        omega
      · trivial
    refine Wp.seq hproc ?_
    intro ch s2 hs2 _
    have h1 := hs1 (changedWord c 0)
    have h2 := hs2 (changedWord c 0)
    rw [setAt_self] at h1
    refine Wp.seq (P := fun _ _ => True) ?_ (fun _ s3 hs3 _ => hlast s3 ?_)
    · split
      · exact mark_wp (hG _ _) fun _ => hG _ _
      · trivial
    · have := hs3 (changedWord c 0)
      omega

theorem item_count {p : Prog Unit} (hp : IsItem c x y cl p) (hc : c.Valid) (hx : x < c.w) (hy : y < c.h) {l : List Flags}
    (hR : ∀ s t v, e.R s (changedWord c 0) t v → l[t]? = some v)
    (hSt : ∀ t v, e.St (changedWord c 0) t v → l[t]? = some v) (hG : ∀ w v, e.G w v)
    (hf : trues (changedWord c 0) (l.drop 1) ≤ c.nodesAvailability.size + 1) :
    Wp e p s fun _ _ => True := by
  have key : ∀ s, Wp e (rounds c (markOf c cl) (mkPixel x y) (roundsLimit c)) s fun _ _ => True := by
    intro s
    refine rounds_count hc hx hy hR hSt hG ?_
    unfold roundsLimit
    have := trues_drop_le (w0 := changedWord c 0) (l := l) (show 1 ≤ s (changedWord c 0) + 1 by omega)
    omega
  cases hp with
  | cl => exact ⟨hG _ _, fun _ _ _ => ⟨hG _ _, fun _ _ _ => key _⟩⟩
  | cuda => exact key _

end Gpu
end SP
