import Verif.Model.Gpu
import Verif.Lemmas.ParRound
/-!
# Work items of GPU
-/
set_option linter.unusedSectionVars false

namespace SP
open FloatOps ConstraintGraph
variable {F : Type} [FloatOps F] {c c' : ConstraintGraph F} {n : Nat} {fresh : Bool} {group : Nat → Nat}

namespace Gpu

/-- What is left of a round after its last barrier. -/
def tail (c : ConstraintGraph F) (mark : Prog Unit) (pixel : Pixel) (fuel : Nat) : Prog Unit :=
  (rdChanged c 0).bind fun again => if again then rounds c mark pixel fuel else .ret ()

/-- What is left of a round after its first barrier. -/
def mid (c : ConstraintGraph F) (mark : Prog Unit) (pixel : Pixel) (fuel : Nat) : Prog Unit :=
  (Par.cspProcessPixel 1 c pixel).bind fun changed =>
  (if changed then mark else .ret ()).bind fun _ => .barrier (tail c mark pixel fuel)

theorem rounds_succ (c : ConstraintGraph F) (mark : Prog Unit) (pixel : Pixel) (fuel : Nat) :
    rounds c mark pixel (fuel + 1) =
      .store (changedWord c 0) (fun _ => false) (.barrier (mid c mark pixel fuel)) := rfl

/-- What is done by an OpenCL item when a node is removed. -/
def markCl (c : ConstraintGraph F) : Prog Unit := (wrChanged c 0 true).bind fun _ => wrChanged c 1 true

/-- What is done by a CUDA thread when a node is removed. -/
def markCuda (c : ConstraintGraph F) : Prog Unit := wrChanged c 0 true

/-- The program is that of the work item of the pixel. The flag tells whether this is OpenCL. -/
inductive IsItem (c : ConstraintGraph F) (x y : Nat) : Bool → Prog Unit → Prop where
  | cl : IsItem c x y true (.store (changedWord c 0) (fun _ => false) (.store (changedWord c 1) (fun _ => false)
      (rounds c (markCl c) (mkPixel x y) (roundsLimit c))))
  | cuda : IsItem c x y false (rounds c (markCuda c) (mkPixel x y) (roundsLimit c))

/-- What is done when a node is removed. -/
def markOf (c : ConstraintGraph F) (cl : Bool) : Prog Unit := if cl then markCl c else markCuda c

/-! ## Logic -/

variable {e : Env} {s : View} {mark : Prog Unit} {pixel : Pixel} {fuel : Nat} {cl : Bool} {x y : Nat}

/-- If some fact follows from processing of the pixel, then it holds when the rounds are over. -/
theorem rounds_wp {Fact : Prop} (hE : e.E .nonterm) (h0 : e.G (changedWord c 0) fun _ => false)
    (hbody : ∀ s, Wp e (Par.cspProcessPixel 1 c pixel) s fun ch s' =>
      Fact ∧ (ch = true → Wp e mark s' fun _ _ => True)) :
    Wp e (rounds c mark pixel fuel) s fun _ _ => Fact := by
  induction fuel generalizing s with
  | zero => exact hE
  | succ fuel ih =>
    rw [rounds_succ]
    refine ⟨h0, fun t _ _ s' _ => ?_⟩
    refine Wp.seq (hbody s') ?_
    rintro ch s2 _ ⟨hfact, hm⟩
    have hlast : ∀ s3, Wp e (.barrier (tail c mark pixel fuel)) s3 fun _ _ => Fact := by
      intro s3 s4 _ t v _ _
      simp only [prog_ret_bind]
      split
      · exact ih
      · exact hfact
    cases ch
    · exact hlast _
    · exact Wp.seq (hm rfl) fun _ s3 _ _ => hlast s3

theorem mark_wp (h1 : e.G (changedWord c 0) fun _ => true) (h2 : cl = true → e.G (changedWord c 1) fun _ => true) :
    Wp e (markOf c cl) s fun _ _ => True := by
  cases cl
  · exact ⟨h1, fun _ _ _ => trivial⟩
  · exact ⟨h1, fun _ _ _ => ⟨h2 rfl, fun _ _ _ => trivial⟩⟩

/-- Rule for a work item. -/
theorem item_wp {p : Prog Unit} {Fact : Prop} (hp : IsItem c x y cl p) (hE : e.E .nonterm)
    (h0 : e.G (changedWord c 0) fun _ => false) (h1 : cl = true → e.G (changedWord c 1) fun _ => false)
    (hbody : ∀ s, Wp e (Par.cspProcessPixel 1 c (mkPixel x y)) s fun ch _ =>
      Fact ∧ (ch = true → e.G (changedWord c 0) (fun _ => true) ∧ (cl = true → e.G (changedWord c 1) fun _ => true))) :
    Wp e p s fun _ _ => Fact := by
  have hb : ∀ s, Wp e (Par.cspProcessPixel 1 c (mkPixel x y)) s fun ch s' =>
      Fact ∧ (ch = true → Wp e (markOf c cl) s' fun _ _ => True) :=
    fun s => (hbody s).mono fun ch s' _ h => ⟨h.1, fun hc => mark_wp (h.2 hc).1 (h.2 hc).2⟩
  cases hp with
  | cl => exact ⟨h0, fun _ _ _ => ⟨h1 rfl, fun _ _ _ => rounds_wp hE h0 hb⟩⟩
  | cuda => exact rounds_wp hE h0 hb

/-! ## Flags -/

/-- Rule for a kernel about flags only. -/
theorem item_flags_wp {p : Prog Unit} {Fact : Prop} (hp : IsItem c x y cl p)
    (hE : e.E .nonterm) (hG : ∀ k b, k ≤ 1 → e.G (changedWord c k) fun _ => b)
    (hbody : ∀ s, Wp e (Par.cspProcessPixel 1 c (mkPixel x y)) s fun _ _ => Fact) :
    Wp e p s fun _ _ => Fact :=
  item_wp hp hE (hG 0 _ (by omega)) (fun _ => hG 1 _ (by omega)) fun s =>
    (hbody s).mono fun _ _ _ h => ⟨h, fun _ => ⟨hG 0 _ (by omega), fun _ => hG 1 _ (by omega)⟩⟩

/-- The word is a flag. -/
abbrev IsFlag (c : ConstraintGraph F) (w : Nat) : Prop := w < c.nodesAvailability.size

theorem changed_notFlag (c : ConstraintGraph F) (k : Nat) : ¬ IsFlag c (changedWord c k) := by
  unfold IsFlag changedWord; omega

theorem ix_flag (hc : c.Valid) {x y d : Nat} (hx : x < c.w) (hy : y < c.h) (hd : d < c.levels) : IsFlag c (c.ix x y d) :=
  (hc.nidx_lt' hx hy hd).1

theorem ix_div (x y d : Nat) : c.ix x y d / 1 = c.ix x y d := Nat.div_one _

/-- Surroundings in which flags are only cleared, and only those that are set. -/
def envClear (c : ConstraintGraph F) (A : Flags) (E : Err → Prop) : Env where
  R := fun _ w t v => IsFlag c w → v w = true → A w = true ∧ t = 0
  St := fun _ t _ => 1 ≤ t
  G := fun w v => IsFlag c w → v w = false ∧ A w = true
  E := E

/-- What is read when a node is to be removed. -/
theorem processPixel_clear (hc : c.Valid) (hx : x < c.w) (hy : y < c.h) {A : Flags}
    (hR : ∀ s w t v, e.R s w t v → IsFlag c w → v w = true → A w = true ∧ t = 0) (hSt : ∀ w t v, e.St w t v → 1 ≤ t)
    (hG : ∀ w v, IsFlag c w → v w = false → A w = true → e.G w v) :
    Wp e (Par.cspProcessPixel 1 c (mkPixel x y)) s fun ch s' => ch = true →
      ∃ d, d < c.levels ∧ c.disparityGraph.IsNode x y d ∧ A (c.ix x y d) = true ∧ s (c.ix x y d) = 0 ∧
        1 ≤ s' (c.ix x y d) := by
  refine cspProcessPixel_wp hc hx hy (fun _ ch s' => ch = true →
      ∃ d, d < c.levels ∧ c.disparityGraph.IsNode x y d ∧ A (c.ix x y d) = true ∧ s (c.ix x y d) = 0 ∧
        1 ≤ s' (c.ix x y d)) (by simp) ?_ (fun _ _ _ h => h)
  intro d ch s1 hs1 hn hP
  refine (shouldRemoveNode_wp hc hn).mono ?_
  intro b s2 hs2 hb
  cases b
  · simp only [Bool.false_eq_true, if_false]
    intro h
    obtain ⟨d', h1, h2, h3, h4, h5⟩ := hP h
    exact ⟨d', h1, h2, h3, h4, Nat.le_trans h5 (hs2 _)⟩
  · simp only [if_true] at hb ⊢
    intro t v _ _
    have hfl := ix_flag hc hn.1 hn.2.1 hn.2.2.1
    obtain ⟨⟨s3, t3, v3, h1, h2, h3, h4⟩, -⟩ := hb
    rw [ix_div] at h2 h3 ⊢
    obtain ⟨h5, rfl⟩ := hR _ _ _ _ h3 hfl h4
    refine ⟨hG _ _ hfl (by simp) h5, fun t' _ hst _ => ?_⟩
    have := h1 (c.ix x y d)
    have := hs1 (c.ix x y d)
    exact ⟨d, hn.2.2.1, hn, h5, by omega, by rw [setAt_self]; exact hSt _ _ _ hst⟩

/-- Surroundings in which nodes of `S` stay available. -/
def envKeep (c : ConstraintGraph F) (S : NodeSet) : Env where
  R := fun _ w _ v => IsFlag c w → Above 1 c S w v
  St := fun _ _ _ => True
  G := fun w v => IsFlag c w → Above 1 c S w v
  E := fun _ => True

/-- Nodes of an arc consistent set are not removed. -/
theorem processPixel_keep (hc : c.Valid) (hx : x < c.w) (hy : y < c.h) {S : NodeSet}
    (hS : ∀ x y d, S x y d → c.disparityGraph.IsNode x y d) (harc : ArcConsistent c.w c.h c.E S) :
    Wp (envKeep c S) (Par.cspProcessPixel 1 c (mkPixel x y)) s fun _ _ => True := by
  have hrd : ∀ {s x y d}, S x y d → ¬ Rd (envKeep c S) 1 s (c.ix x y d) false := by
    rintro s x y d h ⟨s', t, v, _, _, hv, hf⟩
    have hn := hS x y d h
    have := hv (by rw [ix_div]; exact ix_flag hc hn.1 hn.2.1 hn.2.2.1) x y d h rfl
    rw [this] at hf
    exact absurd hf (by simp)
  refine cspProcessPixel_wp hc hx hy (fun _ _ _ => True) trivial ?_ (fun _ _ _ _ => trivial)
  intro d ch s2 _ hn _
  refine (shouldRemoveNode_wp hc hn).mono ?_
  intro b s3 _ hb
  cases b
  · simp
  · simp only [if_true] at hb ⊢
    intro t v _ hv
    refine ⟨fun hf => ?_, fun _ _ _ => trivial⟩
    have hns : ¬ S x y d := by
      intro hSd
      obtain ⟨_, k', hk', hno⟩ := hb
      obtain ⟨d', hd', he⟩ := harc _ _ _ hSd k' hk'
      rcases hno d' he with h | h
      · exact hrd hSd h
      · exact hrd hd' h
    intro x' y' d' hS' hw
    have hne : c.ix x' y' d' ≠ c.ix x y d := by
      intro he
      have h1 := hS x' y' d' hS'
      obtain ⟨rfl, rfl, rfl⟩ := nidx_inj (h := c.h) (l := c.levels) h1.2.1 h1.2.2.1 hn.2.1 hn.2.2.1 he
      exact hns hS'
    simp only [if_neg hne]
    exact hv hf x' y' d' hS' hw

/-- The set of nodes given by flags. -/
def avOf (c : ConstraintGraph F) (A : Flags) : NodeSet := fun x y d =>
  x < c.w ∧ y < c.h ∧ d < c.levels ∧ A (c.ix x y d) = true

/-- If flags do not change, then nodes of the pixel are supported after it is processed, and no change is reported. -/
theorem processPixel_still (hc : c.Valid) (hx : x < c.w) (hy : y < c.h) {A : Flags}
    (hp : ∀ x y d, avOf c A x y d → c.disparityGraph.IsNode x y d)
    (hR : ∀ s w t v, e.R s w t v → IsFlag c w → v w = A w)
    (hSt : ∀ w t v, e.St w t v → ¬ IsFlag c w) (hG : ∀ w v, IsFlag c w → e.G w v) :
    Wp e (Par.cspProcessPixel 1 c (mkPixel x y)) s fun ch _ =>
      ch = false ∧ ∀ d, avOf c A x y d → Supported c.w c.h c.E (avOf c A) x y d := by
  have hrd : ∀ {s x y d b}, c.disparityGraph.IsNode x y d → Rd e 1 s (c.ix x y d) b → A (c.ix x y d) = b := by
    rintro s x y d b hn ⟨s', t, v, _, _, hv, hb⟩
    have := hR _ _ _ _ hv (by rw [ix_div]; exact ix_flag hc hn.1 hn.2.1 hn.2.2.1)
    rw [ix_div] at this
    rw [← this, hb]
  refine cspProcessPixel_wp hc hx hy (fun d ch _ => ch = false ∧ ∀ d', d' < d → avOf c A x y d' →
    Supported c.w c.h c.E (avOf c A) x y d') ⟨rfl, fun d' h => by omega⟩ ?_ ?_
  · intro d ch s2 _ hn hP
    refine (shouldRemoveNode_wp hc hn).mono ?_
    intro b s3 _ hb
    cases b
    · simp only [Bool.false_eq_true, if_false] at hb ⊢
      refine ⟨hP.1, fun d' hd' hav => ?_⟩
      by_cases hdd : d' = d
      · subst hdd
        rcases hb with h | h
        · have := hrd hn h
          have h2 : A (c.ix x y d') = true := hav.2.2.2
          rw [this] at h2
          exact absurd h2 (by simp)
        · intro k' hk'
          obtain ⟨d2, he, h2⟩ := h k' hk'
          have hn2 : c.disparityGraph.IsNode (nbx x k') (nby y k') d2 := he.1.2.2.1
          exact ⟨d2, ⟨hn2.1, hn2.2.1, hn2.2.2.1, hrd hn2 h2⟩, he⟩
      · exact hP.2 d' (by omega) hav
    · simp only [if_true]
      intro t v _ _
      have hfl : IsFlag c (c.ix x y d / 1) := by rw [ix_div]; exact ix_flag hc hn.1 hn.2.1 hn.2.2.1
      exact ⟨hG _ _ hfl, fun t' _ hst => absurd hfl (hSt _ _ _ hst)⟩
  · intro ch s' _ hP
    refine ⟨hP.1, fun d hav => ?_⟩
    have hn := hp _ _ _ hav
    have l1 : d < c.levels := hn.2.2.1
    have l2 : x + d < c.w := hn.2.2.2
    exact hP.2 d (by omega) hav

end Gpu
end SP
