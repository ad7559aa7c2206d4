import Verif.Lemmas.GpuOutcome
import Verif.Lemmas.GpuGroup
/-!
# Launches that have nothing to remove
-/
set_option linter.unusedSectionVars false

namespace SP
open FloatOps ConstraintGraph
variable {F : Type} [FloatOps F] {c : ConstraintGraph F} {fresh : Bool} {group : Nat → Nat} {α β : Type} {e : Env}

/-- The program passes so many barriers before it returns. -/
def Bars (e : Env) : Nat → Prog α → View → Prop
  | b, .ret _, _ => b = 0
  | _, .fail er, _ => e.E er
  | b, .load w k, s => ∀ t v, s w ≤ t → e.R s w t v → Bars e b (k v) (setAt s w t)
  | b, .store w v k, s => e.G w v ∧ ∀ t, s w ≤ t → e.St w t v → Bars e b k (setAt s w t)
  | b, .barrier k, s => ∃ b', b = b' + 1 ∧ ∀ s', s.le s' → Bars e b' k s'

theorem Bars.seq {p : Prog α} {f : α → Prog β} {s : View} {A : α → View → Prop} {b : Nat} (hb : p.NoBar) (h : Wp e p s A)
    (hf : ∀ a s', s.le s' → A a s' → Bars e b (f a) s') : Bars e b (p.bind f) s := by
  induction p generalizing s with
  | ret a => exact hf a s (View.le_refl s) h
  | fail er => exact h
  | load w k ih =>
    intro t v ht hv
    exact ih v (hb v) (h t v ht hv) fun a s' hs => hf a s' (View.le_trans (View.le_set ht) hs)
  | store w v k ih =>
    refine ⟨h.1, fun t ht hv => ?_⟩
    exact ih hb (h.2 t ht hv) fun a s' hs => hf a s' (View.le_trans (View.le_set ht) hs)
  | barrier k ih => exact hb.elim

namespace Gpu

/-- Surroundings in which nothing is changed. -/
def envQuiet (c : ConstraintGraph F) (A : Flags) : Env where
  R := fun _ w t v => (IsFlag c w → v w = A w) ∧ (w = changedWord c 0 → 1 ≤ t → v w = false)
  St := fun _ t _ => 1 ≤ t
  G := fun w v => ¬ IsFlag c w ∧ v w = false
  E := fun _ => False

/-- Nothing is removed if all nodes are supported. -/
theorem processPixel_quiet (hc : c.Valid) {x y : Nat} (hx : x < c.w) (hy : y < c.h) {A : Flags} {s : View}
    (harc : ArcConsistent c.w c.h c.E (avOf c A)) :
    Wp (envQuiet c A) (Par.cspProcessPixel 1 c (mkPixel x y)) s fun ch _ => ch = false := by
  have hrd : ∀ {s x y d b}, x < c.w → y < c.h → d < c.levels → Rd (envQuiet c A) 1 s (c.ix x y d) b → A (c.ix x y d) = b := by
    rintro s x y d b hx hy hd ⟨s', t, v, _, _, hv, hb⟩
    have := hv.1 (by rw [ix_div]; exact ix_flag hc hx hy hd)
    rw [ix_div] at this
    rw [← this, hb]
  refine cspProcessPixel_wp hc hx hy (fun _ ch _ => ch = false) rfl ?_ (fun _ _ _ h => h)
  intro d ch s2 _ hn hP
  refine (shouldRemoveNode_wp hc hn).mono ?_
  intro b s3 _ hb
  cases b
  · simp only [Bool.false_eq_true, if_false]
    exact hP
  · exfalso
    simp only [if_true] at hb
    obtain ⟨h1, k', hk', hno⟩ := hb
    have hav : avOf c A x y d := ⟨hx, hy, hn.2.2.1, hrd hx hy hn.2.2.1 h1⟩
    obtain ⟨d', hd', he⟩ := harc _ _ _ hav k' hk'
    rcases hno d' he with h | h
    · have := hrd hx hy hn.2.2.1 h
      rw [hav.2.2.2] at this
      cases this
    · have := hrd hd'.1 hd'.2.1 hd'.2.2.1 h
      have h2 := hd'.2.2.2
      rw [this] at h2
      cases h2

theorem item_bars (hc : c.Valid) {x y : Nat} (hx : x < c.w) (hy : y < c.h) {A : Flags} {s : View} {cl : Bool} {p : Prog Unit}
    (hp : IsItem c x y cl p) (harc : ArcConsistent c.w c.h c.E (avOf c A)) : Bars (envQuiet c A) 2 p s := by
  have hG : ∀ k, (envQuiet c A).G (changedWord c k) fun _ => false := fun k => ⟨changed_notFlag c k, rfl⟩
  have hrounds : ∀ mark s, Bars (envQuiet c A) 2 (rounds c mark (mkPixel x y) (roundsLimit c)) s := by
    intro mark s
    rw [show roundsLimit c = (c.nodesAvailability.size + 1) + 1 from rfl, rounds_succ]
    refine ⟨hG 0, fun t _ ht => ⟨1, rfl, fun s1 hs1 => ?_⟩⟩
    have h1 : 1 ≤ s1 (changedWord c 0) := by
      have := hs1 (changedWord c 0)
      rw [setAt_self] at this
      exact Nat.le_trans ht this
    refine Bars.seq (cspProcessPixel_noBar _) (processPixel_quiet hc hx hy harc) ?_
    rintro ch s2 hs2 rfl
    refine ⟨0, rfl, fun s3 hs3 => ?_⟩
    intro t' v ht' hv
    have h2 : 1 ≤ t' := Nat.le_trans h1 (Nat.le_trans (hs2 _) (Nat.le_trans (hs3 _) ht'))
    have := hv.2 rfl h2
    simp only [prog_ret_bind]
    rw [if_neg (by rw [this]; simp)]
    rfl
  cases hp with
  | cl => exact ⟨hG 0, fun _ _ _ => ⟨hG 1, fun _ _ _ => hrounds _ _⟩⟩
  | cuda => exact hrounds _ _

/-- If all nodes are supported then nobody misses anybody at a barrier. -/
theorem launch_quiet {kernel : Kernel F} {cl : Bool} {d : Device F} (hk : Covers kernel cl) (hc : d.graph.Valid)
    (harc : ArcConsistent d.graph.w d.graph.h d.graph.E d.graph.Av) {P : Pool Unit}
    (hs : Steps fresh group d.items (d.launch kernel) P) : ¬ Missed group d.items P := by
  obtain ⟨px, py, hcov⟩ := hk _ hc
  let A := flagsOf d.graph.nodesAvailability
  let e := envQuiet d.graph A
  suffices h : (∃ st : Nat → Nat, ∀ i, i < d.items → Bars e (st (group i)) (P.prog i) (P.seen i)) ∧
      (∀ w t v, (P.mem w)[t]? = some v → e.R (fun _ => 0) w t v) ∧ ∀ w, 1 ≤ (P.mem w).length by
    obtain ⟨⟨st, h⟩, -⟩ := h
    rintro ⟨i, j, k, hi, hj, hg, h1, h2⟩
    have a := h i hi
    have b := h j hj
    rw [h1] at a
    rw [h2, ← hg] at b
    obtain ⟨b', hb', -⟩ := a
    have b : st (group i) = 0 := b
    omega
  generalize hP0 : d.launch kernel = P0 at hs
  induction hs with
  | refl =>
    subst hP0
    refine ⟨⟨fun _ => 2, fun i hi => ?_⟩, fun w t v hv => ?_, fun w => by rw [launch_mem]; simp⟩
    · rw [d.items_eq hc] at hi
      obtain ⟨hx, hy, hit⟩ := hcov.item i hi
      exact item_bars hc hx hy hit harc
    · rw [launch_mem] at hv
      obtain ⟨rfl, rfl⟩ := get_single hv
      exact ⟨fun hf => Device.flags_flag hf, fun _ h => absurd h (by omega)⟩
  | @step Q R h h' ih =>
    obtain ⟨⟨st, ih1⟩, ih2, ih3⟩ := ih
    cases h' with
    | @load i w t k v hi hp hv ht hf =>
      refine ⟨⟨st, fun j hj => ?_⟩, ih2, ih3⟩
      by_cases hji : j = i
      · subst hji
        simp only [setAt_self]
        have := ih1 j hj
        rw [hp] at this
        exact this t v ht (ih2 w t v hv)
      · simp only [setAt_ne _ _ hji]
        exact ih1 j hj
    | @store i w k v hi hp =>
      have hi1 := ih1 i hi
      rw [hp] at hi1
      refine ⟨⟨st, fun j hj => ?_⟩, fun w' t v' hv => ?_, fun w' => ?_⟩
      · by_cases hji : j = i
        · subst hji
          simp only [setAt_self]
          refine hi1.2 _ ?_ (ih3 w)
          exact Nat.le_of_lt (h.ok (hP0 ▸ Pool.start_ok _ _) j w hj)
        · simp only [setAt_ne _ _ hji]
          exact ih1 j hj
      · by_cases hw : w' = w
        · subst hw
          simp only [setAt_self] at hv
          rcases Nat.lt_or_ge t (Q.mem w').length with hlt | hge
          · rw [List.getElem?_append_left hlt] at hv
            exact ih2 w' t v' hv
          · rw [List.getElem?_append_right hge] at hv
            obtain ⟨rfl, -⟩ := get_single hv
            exact ⟨fun hf => absurd hf hi1.1.1, fun _ _ => hi1.1.2⟩
        · simp only [setAt_ne _ _ hw] at hv
          exact ih2 w' t v' hv
      · by_cases hw : w' = w
        · subst hw
          simp only [setAt_self, List.length_append]
          exact Nat.le_trans (ih3 w') (Nat.le_add_right _ _)
        · simp only [setAt_ne _ _ hw]
          exact ih3 w'
    | @barrier γ k seen hne hp hle hex hout =>
      refine ⟨⟨fun g => if g = γ then st γ - 1 else st g, fun j hj => ?_⟩, ih2, ih3⟩
      by_cases hg : group j = γ
      · simp only [hg, hj, and_self, if_true]
        have := ih1 j hj
        rw [hp j hj hg, hg] at this
        obtain ⟨b', hb', h2⟩ := this
        rw [hb', Nat.add_sub_cancel]
        exact h2 _ fun w => hle j j w hj hg hj hg
      · have hn : ¬ (j < d.items ∧ group j = γ) := fun h => hg h.2
        simp only [if_neg hg, if_neg hn, hout j hn]
        exact ih1 j hj

end Gpu
end SP
