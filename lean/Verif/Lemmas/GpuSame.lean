import Verif.Lemmas.GpuHost
/-!
# Results of launches by a single work group do not depend on the schedule
-/
set_option linter.unusedSectionVars false

namespace SP
open FloatOps ConstraintGraph Gpu
variable {F D : Type} [FloatOps F] [FloatOps D] {kernel : Kernel D} {cl : Bool} {allowed : (Nat → Nat) → Prop}
  {launch : Launcher D} {d d' : Device D} {E : Err → Prop}

theorem bind_eq_ok {α β : Type} {m : M α} {f : α → M β} {b : β} (h : (m >>= f) = .ok b) : ∃ a, m = .ok a ∧ f a = .ok b := by
  cases m with
  | error e => cases h
  | ok a => exact ⟨a, rfl, h⟩

/-- Two loops with the same counter that are never left early; what holds if both of them end. -/
theorem cfor_agree {ι σ τ : Type} {R : σ → τ → Prop} {cond : ι → Bool} {step : ι → ι}
    {f : ι → σ → M (σ × Bool)} {g : ι → τ → M (τ × Bool)}
    (hb : ∀ i s t a b, R s t → cond i = true → f i s = .ok a → g i t = .ok b → a.2 = false ∧ b.2 = false ∧ R a.1 b.1)
    (fuel : Nat) (i : ι) (s : σ) (t : τ) (h : R s t) {s' : σ} {t' : τ}
    (hs : cfor fuel i cond step f s = .ok s') (ht : cfor fuel i cond step g t = .ok t') : R s' t' := by
  induction fuel generalizing i s t with
  | zero =>
    unfold cfor at hs ht
    split at hs
    · cases hs
    · rename_i hc
      rw [if_neg hc] at ht
      cases hs; cases ht
      exact h
  | succ fuel ih =>
    unfold cfor at hs ht
    split at hs
    · rename_i hc
      rw [if_pos hc] at ht
      cases hf : f i s with
      | error e => rw [hf] at hs; cases hs
      | ok a =>
        cases hg : g i t with
        | error e => rw [hg] at ht; cases ht
        | ok b =>
          obtain ⟨h1, h2, h3⟩ := hb i s t a b h hc hf hg
          obtain ⟨a, ba⟩ := a
          obtain ⟨b, bb⟩ := b
          simp only at h1 h2 h3
          subst h1 h2
          rw [hf] at hs
          rw [hg] at ht
          exact ih _ _ _ h3 hs ht
    · rename_i hc
      rw [if_neg hc] at ht
      cases hs; cases ht
      exact h

/-- The flags of a graph are known when the available nodes are. -/
theorem graph_ext {c c1 c2 : ConstraintGraph D} (h1 : c.Same c1) (h2 : c.Same c2) (hv1 : c1.Valid) (hv2 : c2.Valid)
    (h : c1.Av = c2.Av) : c1 = c2 := by
  have e1 : c1.disparityGraph = c2.disparityGraph := by rw [h1.1, h2.1]
  have e2 : c1.lowestPenalties = c2.lowestPenalties := by rw [h1.2.1, h2.2.1]
  have e3 : c1.threshold = c2.threshold := by rw [h1.2.2, h2.2.2]
  have e4 : c1.nodesAvailability = c2.nodesAvailability := by
    have hs : c1.nodesAvailability.size = c2.nodesAvailability.size := by rw [hv1.size, hv2.size, e1]
    refine Array.ext hs fun i hi1 hi2 => ?_
    have hsz : c1.nodesAvailability.size = c1.w * c1.h * c1.levels := hv1.size
    obtain ⟨x, y, dd, hx, hy, hd, he⟩ := nidx_surj (w := c1.w) (h := c1.h) (l := c1.levels) (i := i) (by omega)
    have := congrFun (congrFun (congrFun h x) y) dd
    unfold ConstraintGraph.Av at this
    have hw : c2.w = c1.w := by unfold ConstraintGraph.w; rw [e1]
    have hh : c2.h = c1.h := by unfold ConstraintGraph.h; rw [e1]
    have hl : c2.levels = c1.levels := by unfold ConstraintGraph.levels; rw [e1]
    rw [hw, hh, hl, he] at this
    simp only [hx, hy, hd, true_and, Array.getD, hi1, hi2, dif_pos] at this
    rw [← Bool.coe_iff_coe]
    simpa using this
  cases c1; cases c2
  simp_all

/-- The fixed point after launches by a single work group. -/
theorem Settled.closure (hk : Covers kernel cl) (hone : OneGroup allowed) (hp : d.graph.Proper) (h : Settled kernel allowed d d') :
    d'.graph.Av = arcClosure d.graph.w d.graph.h d.graph.E d.graph.Av :=
  arcClosure_eq h.sub (h.arc_one hk hone hp) (h.keeps _ arcClosure_sub arcClosure_arc)

namespace Gpu

theorem hostLoop_agree {c : ConstraintGraph D} {after1 after2 : Device D → Nat → M (Device D × Nat)} (hk : Covers kernel cl)
    (hone : OneGroup allowed) (hc : c.Valid) (hp : c.Proper)
    (h1 : ∀ d n, d.graph.Valid → d.graph.Proper → Res E (after1 d n) fun r => Settled kernel allowed d r.1)
    (h2 : ∀ d n, d.graph.Valid → d.graph.Proper → Res E (after2 d n) fun r => Settled kernel allowed d r.1)
    {r1 r2 : Device D × Nat} (hr1 : hostLoop after1 c = .ok r1) (hr2 : hostLoop after2 c = .ok r2) :
    r1.1.graph = r2.1.graph := by
  let R : Device D × Nat → Device D × Nat → Prop := fun s t =>
    s.1.graph = t.1.graph ∧ c.Same s.1.graph ∧ s.1.graph.Valid ∧ Sub s.1.graph.Av c.Av
  suffices h : R r1 r2 from h.1
  refine cfor_agree (R := R) ?_ _ _ _ _ ⟨rfl, Same.refl c, hc, Sub.refl _⟩ hr1 hr2
  intro x s t a b hR hx ha hb
  obtain ⟨s1, hs1, ha⟩ := bind_eq_ok ha
  obtain ⟨t1, ht1, hb⟩ := bind_eq_ok hb
  rw [pure_eq_ok] at ha hb
  cases ha; cases hb
  refine ⟨rfl, rfl, ?_⟩
  refine cfor_agree (R := R) ?_ _ _ _ _ hR hs1 ht1
  rintro y ⟨s, n⟩ ⟨t, n'⟩ a b ⟨e1, e2, e3, e4⟩ hy ha hb
  simp only at e1 e2 e3 e4
  have hxw : x.toNat < c.disparityGraph.right.width.toNat := by simpa [UInt64.lt_iff_toNat_lt] using hx
  have hyh : y.toNat < c.disparityGraph.right.height.toNat := by simpa [UInt64.lt_iff_toNat_lt] using hy
  have hpx : (⟨x, y⟩ : Pixel) = mkPixel x.toNat y.toNat := by simp [mkPixel]
  obtain ⟨⟨g, b1⟩, hg, q1, q2, q3, -⟩ := chooseBestNode_mk e3 (e2.proper hp e4) (x := x.toNat) (y := y.toNat)
    (by rw [e2.w_eq]; exact hxw) (by rw [e2.h_eq]; exact hyh)
  simp only at q1 q2 q3
  have hsub : Sub g.Av s.graph.Av := fun x' y' dd h => ((q3 x' y' dd).1 h).1
  have hsg := e2.trans q1
  have hpg := hsg.proper hp (hsub.trans e4)
  rw [hpx] at ha hb
  simp only at ha hb
  rw [← e1] at hb
  rw [hg, bind_ok] at ha hb
  obtain ⟨s1, hs1, ha⟩ := bind_eq_ok ha
  obtain ⟨t1, ht1, hb⟩ := bind_eq_ok hb
  rw [pure_eq_ok] at ha hb
  cases ha; cases hb
  have k1 := h1 { s with graph := g } n q2 hpg
  have k2 := h2 { t with graph := g } n' q2 hpg
  rw [hs1] at k1
  rw [ht1] at k2
  have k1 : Settled kernel allowed { s with graph := g } s1.1 := k1
  have k2 : Settled kernel allowed { t with graph := g } t1.1 := k2
  refine ⟨rfl, rfl, ?_, hsg.trans k1.same, k1.valid, k1.sub.trans (hsub.trans e4)⟩
  refine graph_ext k1.same k2.same k1.valid k2.valid ?_
  rw [k1.closure hk hone hpg, k2.closure hk hone hpg]

end Gpu
end SP
