import Verif.Spec.Perfect
import Verif.Lemmas.GpuGreedy
import Verif.Lemmas.ParMap
import Verif.Lemmas.Transfer
import Verif.Props.Gpu
/-!
# A perfect labeling is always found
-/
set_option linter.unusedSectionVars false

namespace SP
open FloatOps ConstraintGraph

section
variable {F : Type} [FloatOps F] [LawfulFloat F] {g : DisparityGraph F} {c : ConstraintGraph F} {L : Nat → Nat → Nat} {B : Nat} {jobs : UInt64}
  {solve : Solver F}

theorem DisparityGraph.Perfect.feasible (h : g.Perfect L) {t : F} (ht : le zero t = true) : g.FeasibleAt t L := by
  have key : ∀ a b : F, le a b = true → le (sub a b) t = true := by
    intro a b hab
    have := LawfulFloat.sub_mono _ _ b hab
    rw [LawfulFloat.sub_self] at this
    exact LawfulFloat.le_trans _ _ _ this ht
  intro x y hx hy
  refine ⟨(h.node x y hx hy).1, fun d hd => key _ _ ((h.node x y hx hy).2 d hd).1, fun k hk => ⟨(h.edge x y k hk).1, fun d d' hd => ?_⟩⟩
  exact key _ _ ((h.edge x y k hk).2 d d' hd)

theorem DisparityGraph.Perfect.edge_zero (hg : g.Fresh) (h : g.Perfect L) {x y k : Nat} (hk : HasNb g.w g.h x y k) :
    g.edgeQ x y k (L x y) (L (nbx x k) (nby y k)) = zero := by
  refine LawfulFloat.le_antisymm _ _ ?_ (edgeQ_nonneg hg _ _ _ _ _)
  have := (h.edge x y k hk).2 0 0 (isEdge_zero hg.toValid hk)
  rwa [edgeQ_eq hg x y k 0] at this

/-- The node of `L` is the best one of each pixel. -/
def LocallyBest (c : ConstraintGraph F) (L : Nat → Nat → Nat) : Prop :=
  ∀ x y d, c.Av x y d → NotWorse c x y (L x y) d

/-- It is the one that is chosen. -/
theorem LocallyBest.kept {c g : ConstraintGraph F} (hL : LocallyBest c L) (hsame : c.Same g) (hp : g.Proper) (hsub : Sub g.Av c.Av)
    (hnn : ∀ x y d, le zero (c.disparityGraph.nodeQ x y d) = true) (hT : Sub (labelingNodes c.w c.h L) g.Av) (x y : Nat) :
    Sub (labelingNodes c.w c.h L) (keepBest g x y) := by
  rintro x' y' d ⟨hx', hy', rfl⟩
  refine ⟨hT _ _ _ ⟨hx', hy', rfl⟩, ?_⟩
  rintro ⟨rfl, rfl⟩
  rw [kept_iff_best hp (by rw [hsame.1]; exact fun d _ => hnn _ _ d), hsame.1]
  exact ⟨hT _ _ _ ⟨hx', hy', rfl⟩, fun d' hd' => (hL _ _ d' (hsub _ _ _ hd')).1, fun d' hlt hd' => (hL _ _ d' (hsub _ _ _ hd')).2 hlt⟩

/-- Whatever other nodes have been removed, choosing the best node never removes nodes of `L`. -/
def KeepsBest {F : Type} [FloatOps F] (c : ConstraintGraph F) (L : Nat → Nat → Nat) : Prop :=
  ∀ g, c.Same g → g.Proper → Sub g.Av c.Av → Sub (labelingNodes c.w c.h L) g.Av → ∀ x y, Sub (labelingNodes c.w c.h L) (keepBest g x y)

theorem LocallyBest.keeps {c : ConstraintGraph F} (hL : LocallyBest c L) (hnn : ∀ x y d, le zero (c.disparityGraph.nodeQ x y d) = true) : KeepsBest c L :=
  fun _ h1 h2 h3 h4 x y => hL.kept h1 h2 h3 hnn h4 x y

/-- The same in an arithmetic that represents a lawful one. -/
theorem keepsBest_of {D : Type} [FloatOps D] {ψ : F → D} {P : F → Prop} (hom : Hom (.of ψ) P) {c : ConstraintGraph D} {q : Nat → Nat → Nat → F}
    (hq : ∀ x y d, c.Av x y d → c.disparityGraph.nodeQ x y d = ψ (q x y d)) (hnn : ∀ x y d, le zero (q x y d) = true)
    (hbest : ∀ x y d, c.Av x y d → le (q x y (L x y)) (q x y d) = true ∧ (d < L x y → lt (q x y (L x y)) (q x y d) = true)) : KeepsBest c L := by
  intro g hsame hp hsub hT x y
  rintro x' y' d ⟨hx', hy', rfl⟩
  refine ⟨hT _ _ _ ⟨hx', hy', rfl⟩, ?_⟩
  rintro ⟨rfl, rfl⟩
  have hav : g.Av x' y' (L x' y') := hT _ _ _ ⟨hx', hy', rfl⟩
  have hq' : ∀ d, g.Av x' y' d → g.disparityGraph.nodeQ x' y' d = ψ (q x' y' d) := fun d hd => by
    rw [hsame.1]
    exact hq _ _ _ (hsub _ _ _ hd)
  have hfold : ∀ n, ((List.range n).foldl (bestStep g x' y') minusOne = minusOne ∧ ∀ d < n, ¬ g.Av x' y' d) ∨
      ∃ d₀ < n, g.Av x' y' d₀ ∧ (List.range n).foldl (bestStep g x' y') minusOne = ψ (q x' y' d₀) ∧
        ∀ d < n, g.Av x' y' d → le (q x' y' d₀) (q x' y' d) = true := by
    intro n
    induction n with
    | zero => exact .inl ⟨rfl, fun d hd => absurd hd (Nat.not_lt_zero d)⟩
    | succ n ih =>
      rw [List.range_succ, List.foldl_append, List.foldl_cons, List.foldl_nil]
      by_cases hn : g.Av x' y' n
      · right
        rcases ih with ⟨h1, h2⟩ | ⟨d₀, h0, h1, h2, h3⟩
        · refine ⟨n, n.lt_succ_self, hn, ?_, fun d hd hd' => ?_⟩
          · rw [h1]
            unfold bestStep
            rw [if_pos hn, if_pos (by rw [← hom.minusOne, ← hom.zero, hom.lt]; exact LawfulFloat.minusOne_neg), hq' n hn]
          · rcases Nat.lt_succ_iff_lt_or_eq.1 hd with h | rfl
            · exact absurd hd' (h2 d h)
            · exact LawfulFloat.le_refl _
        · have hneg : lt (ψ (q x' y' d₀)) zero = false := by
            rw [← hom.zero, hom.lt, Bool.eq_false_iff]
            intro h
            rw [LawfulFloat.lt_iff] at h
            rw [hnn] at h
            cases h
          have hstep : bestStep g x' y' (ψ (q x' y' d₀)) n = if le (q x' y' n) (q x' y' d₀) then ψ (q x' y' n) else ψ (q x' y' d₀) := by
            unfold bestStep min'
            rw [if_pos hn, hneg, hq' n hn, hom.le]
            rfl
          rw [h2, hstep]
          by_cases hle : le (q x' y' n) (q x' y' d₀) = true
          · refine ⟨n, n.lt_succ_self, hn, by rw [if_pos hle], fun d hd hd' => ?_⟩
            rcases Nat.lt_succ_iff_lt_or_eq.1 hd with h | rfl
            · exact LawfulFloat.le_trans _ _ _ hle (h3 d h hd')
            · exact LawfulFloat.le_refl _
          · refine ⟨d₀, h0.trans n.lt_succ_self, h1, by rw [if_neg hle], fun d hd hd' => ?_⟩
            rcases Nat.lt_succ_iff_lt_or_eq.1 hd with h | rfl
            · exact h3 d h hd'
            · exact (LawfulFloat.le_total _ _).resolve_right hle
      · have hstep : ∀ m, bestStep g x' y' m n = m := fun m => by
          unfold bestStep
          rw [if_neg hn]
        rw [hstep]
        refine ih.imp (fun ⟨h1, h2⟩ => ⟨h1, fun d hd => ?_⟩) fun ⟨d₀, h0, h1, h2, h3⟩ => ⟨d₀, h0.trans n.lt_succ_self, h1, h2, fun d hd hd' => ?_⟩
        · rcases Nat.lt_succ_iff_lt_or_eq.1 hd with h | rfl
          · exact h2 d h
          · exact hn
        · rcases Nat.lt_succ_iff_lt_or_eq.1 hd with h | rfl
          · exact h3 d h hd'
          · exact absurd hd' hn
  have hrange : L x' y' < min g.levels (g.w - x') := by
    obtain ⟨-, -, h1, h2⟩ := hp _ _ _ hav
    have h3 : L x' y' < g.levels := h1
    have h4 : x' + L x' y' < g.w := h2
    omega
  have hbq : bestQ g x' y' = ψ (q x' y' (L x' y')) := by
    unfold bestQ
    rcases hfold (min g.levels (g.w - x')) with ⟨-, h⟩ | ⟨d₀, -, h1, h2, h3⟩
    · exact absurd hav (h _ hrange)
    · rw [h2, LawfulFloat.le_antisymm _ _ (h3 _ hrange hav) (hbest _ _ _ (hsub _ _ _ h1)).1]
  refine ⟨hav, ?_, fun d' hlt hd' => ?_⟩
  · rw [hbq, hq' _ hav, hom.lt, Bool.eq_false_iff]
    intro h
    rw [LawfulFloat.lt_iff, LawfulFloat.le_refl] at h
    cases h
  · rw [hbq, hq' _ hd', hom.lt]
    exact (hbest _ _ _ (hsub _ _ _ hd')).2 hlt

/-- Threads find it. -/
theorem par_findLabeling_best (hs : solve.Possible B jobs) (hc : c.Valid) (hp : c.Proper)
    (hj : 0 < jobs.toNat) (hfit : c.h + jobs.toNat ≤ 18446744073709551616)
    (hL : Consistent c.w c.h c.E c.Av L) (hbest : KeepsBest c L) (n : Nat) :
    Res (Hangs solve B jobs) (Par.findLabeling solve n c) fun r => r.2.1 = true ∧ Sub (labelingNodes c.w c.h L) r.1.Av := by
  refine par_findLabeling_rule hc (fun _ _ g => c.Same g ∧ g.Valid ∧ Sub g.Av c.Av ∧ Sub (labelingNodes c.w c.h L) g.Av) _
    ⟨Same.refl c, hc, Sub.refl _, hL.sub⟩ ?_ (fun _ _ _ h => h) (fun _ _ h => ⟨rfl, h.2.2.2⟩) n
  rintro x y g n hx hy ⟨h1, h2, h3, h4⟩
  unfold Par.labelStep
  have hpg := h1.proper hp h3
  have hkept := hbest _ h1 hpg h3 h4 x y
  refine Res.bind (chooseBestNode_mk h2 hpg (by rw [h1.w_eq]; exact hx) (by rw [h1.h_eq]; exact hy)).res ?_
  rintro ⟨g1, b1⟩ ⟨k1, k2, k3, k4⟩
  simp only at k1 k2 k3 k4
  have hav : g1.Av = keepBest g x y := by
    funext x' y' d
    exact propext (k3 x' y' d)
  have hb1 : b1 = true := k4.2 ⟨_, (hkept _ _ _ ⟨hx, hy, rfl⟩).2 ⟨rfl, rfl⟩⟩
  subst hb1
  have hsub1 : Sub g1.Av g.Av := by rw [hav]; exact keepBest_sub g x y
  simp only [Bool.not_true, Bool.false_eq_true, if_false]
  have hs1 := h1.trans k1
  have hfit1 : g1.h + jobs.toNat ≤ 18446744073709551616 := by rw [hs1.h_eq]; exact hfit
  have hp1 := hs1.proper hp (hsub1.trans h3)
  refine Res.bind (solver_res hs hj n k2 hp1 hfit1) ?_
  rintro ⟨g2, b2⟩ hto
  simp only at hto
  obtain ⟨m1, m2, m3⟩ := hto.basic k2 hj hfit1
  rw [← hav] at hkept
  have hkeep := hL.keepable
  obtain ⟨rfl, m4⟩ := hto.keeps k2 hj hfit1 hp1 hkept (by rw [hs1.w_eq, hs1.h_eq, hs1.E_eq]; exact hkeep.arc)
    (by rw [hs1.w_eq, hs1.h_eq]; exact hkeep.alive)
  exact .inl ⟨rfl, hs1.trans m1, m2, m3.trans (hsub1.trans h3), m4⟩

/-- If there is a labeling feasible at each threshold then the graph for the found threshold is solvable. -/
theorem par_solvedGraph_feasible (hs : solve.Possible B jobs) (hg : g.Fresh) (hj : 0 < jobs.toNat)
    (hfit : g.h + jobs.toNat ≤ 18446744073709551616) (hL : ∀ t, le zero t = true → ∃ L, g.FeasibleAt t L) :
    Res (Hangs solve B jobs) (Par.solvedGraph solve g) fun r => ∃ t, le zero t = true ∧ Solved g t r.1 := by
  have h0 := par_solvedGraph hs hg hj hfit
  have hmt := par_minimalThreshold hs hg hj hfit
  unfold Par.solvedGraph at h0 ⊢
  cases hm : Par.minimalThreshold solve g with
  | error e => rw [hm] at hmt; exact hmt
  | ok r =>
    obtain ⟨p, t, calls⟩ := r
    rw [hm] at hmt h0
    obtain ⟨htab, hmem, -, -⟩ := hmt
    simp only at htab hmem
    have ht := candidate_nonneg hg htab hmem
    have hinf := par_infeasible hs hg htab hj hfit calls t
    simp only [bind_ok] at h0 ⊢
    obtain ⟨c0, hc0, -⟩ := start_mk hg htab t
    simp only [hc0, bind_ok] at h0 hinf ⊢
    cases hc1 : solve calls c0 with
    | error e => rw [hc1] at hinf; exact hinf
    | ok r =>
      obtain ⟨c1, b1⟩ := r
      rw [hc1] at hinf h0
      have hinf' : b1 = false → ¬ ∃ L, g.FeasibleAt t L := hinf
      cases b1
      · exact absurd (hL t ht) (hinf' rfl)
      · obtain ⟨t', h1, h2⟩ := h0
        obtain rfl : t = t' := h2
        exact ⟨t, ht, h1⟩

/-- The image is `L`. -/
structure MapOf (g : DisparityGraph F) (L : Nat → Nat → Nat) (im : Image) : Prop where
  width : im.width = g.right.width
  height : im.height = g.right.height
  levels : im.maxValue = g.disparityLevels
  size : im.data.size = g.w * g.h
  value : ∀ x y, x < g.w → y < g.h → im.at x y = L x y

omit [LawfulFloat F] in
theorem buildDisparityMap_of (hc : c.Valid) (hp : c.Proper) (hsg : c.Single) (h : Sub (labelingNodes c.w c.h L) c.Av) :
    Ok (buildDisparityMap c) (MapOf c.disparityGraph L) := by
  rcases buildDisparityMap_mk hc hp with ⟨-, im, him, h1, h2, h3, h4, h5⟩ | ⟨h1, -⟩
  · exact ⟨im, him, h1, h2, h3, h4, fun x y hx hy => hsg _ _ _ _ (h5 x y hx hy).1 (h _ _ _ ⟨hx, hy, rfl⟩)⟩
  · exact absurd (fun x y hx hy => ⟨_, h _ _ _ ⟨hx, hy, rfl⟩⟩) h1

/-- What is known about a perfect labeling when the threshold has been found. -/
theorem Solved.perfect (hg : g.Fresh) {t : F} (ht : le zero t = true) (h : Solved g t c) (hL : g.Perfect L) :
    Consistent c.w c.h c.E c.Av L ∧ LocallyBest c L := by
  obtain ⟨p, c0, htab, hc0, k1, k3⟩ := h.start
  obtain ⟨c0', hc0', a1, a2, a3, a4, a5, -, a7⟩ := start_mk hg htab t
  rw [hc0] at hc0'
  cases hc0'
  have hf := hL.feasible ht
  have hcons := (feasible_iff_consistent hg a3 a4 a5 a7).2 hf
  have hkeeps := h.keeps L hf
  refine ⟨fun x y hx hy => ?_, fun x y d hd => ?_⟩
  · rw [k1.E_eq, k1.w_eq, k1.h_eq]
    refine ⟨hkeeps _ _ _ ⟨by rw [← h.w_eq]; exact hx, by rw [← h.h_eq]; exact hy, rfl⟩, (hcons x y ?_ ?_).2⟩
    · rw [← k1.w_eq]; exact hx
    · rw [← k1.h_eq]; exact hy
  · have hn := ((a7 _ _ _).1 (k3 _ _ _ hd)).1
    unfold NotWorse
    rw [h.graph_eq hg]
    exact (hL.node x y hn.1 hn.2.1).2 d hn

/-- The whole computation with any function that finds a perfect labeling. -/
theorem par_labeledMap_of {E : Err → Prop} {label : Nat → ConstraintGraph F → M (ConstraintGraph F × Bool)} (hs : solve.Possible B jobs)
    (hg : g.Fresh) (hj : 0 < jobs.toNat) (hfit : g.h + jobs.toNat ≤ 18446744073709551616) (hL : g.Perfect L)
    (hl : ∀ n c t, le zero t = true → Solved g t c → Res E (label n c) fun r =>
      r.2 = true ∧ c.Same r.1 ∧ r.1.Valid ∧ Sub r.1.Av c.Av ∧ r.1.Single ∧ Sub (labelingNodes c.w c.h L) r.1.Av) :
    Res (fun e => Hangs solve B jobs e ∨ E e) (Par.labeledMap solve label g) (MapOf g L) := by
  unfold Par.labeledMap
  refine Res.bind ((par_solvedGraph_feasible hs hg hj hfit fun t ht => ⟨L, hL.feasible ht⟩).weaken fun e he => .inl he) ?_
  rintro ⟨c, calls⟩ ⟨t, ht, hsol⟩
  simp only at hsol
  refine Res.bind ((hl calls c t ht hsol).weaken fun e he => .inr he) ?_
  rintro ⟨c', b⟩ ⟨h1, h2, h3, h4, h5, h6⟩
  simp only at h1 h2 h3 h4 h5 h6
  subst h1
  simp only [Bool.not_true, Bool.false_eq_true, if_false]
  rw [← h2.w_eq, ← h2.h_eq] at h6
  have := buildDisparityMap_of h3 (h2.proper hsol.proper h4) h5 h6
  rw [h2.1, hsol.graph_eq hg] at this
  exact this.res

theorem par_labelCpu_best (hs : solve.Possible B jobs) (hg : g.Fresh) (hj : 0 < jobs.toNat) (hfit : g.h + jobs.toNat ≤ 18446744073709551616)
    (hL : g.Perfect L) (n : Nat) {t : F} (ht : le zero t = true) (hsol : Solved g t c) :
    Res (Hangs solve B jobs) (Par.labelCpu solve n c) fun r =>
      r.2 = true ∧ c.Same r.1 ∧ r.1.Valid ∧ Sub r.1.Av c.Av ∧ r.1.Single ∧ Sub (labelingNodes c.w c.h L) r.1.Av := by
  obtain ⟨hcons, hbest⟩ := hsol.perfect hg ht hL
  have hfit' : c.h + jobs.toNat ≤ 18446744073709551616 := by rw [hsol.h_eq]; exact hfit
  have h1 := par_findLabeling hs hsol.valid hsol.proper hj hfit' n
  have h2 := par_findLabeling_best hs hsol.valid hsol.proper hj hfit' hcons (hbest.keeps (by rw [hsol.graph_eq hg]; exact nodeQ_nonneg hg)) n
  unfold Par.labelCpu
  revert h1 h2
  cases Par.findLabeling solve n c with
  | error e => exact fun h _ => h
  | ok r =>
    rintro ⟨m1, m2, m3, m4⟩ ⟨m5, m6⟩
    exact ⟨m5, m1, m2, m3, (m4 m5).2.2, m6⟩

end

/-! ## Devices -/

namespace Gpu
variable {F D : Type} [FloatOps F] [FloatOps D] {kernel : Kernel D} {allowed : (Nat → Nat) → Prop} {launch : Launcher D} {E : Err → Prop}
  {L : Nat → Nat → Nat}

theorem hostLoop_best {c : ConstraintGraph D} {after : Device D → Nat → M (Device D × Nat)} (hc : c.Valid) (hp : c.Proper)
    (hL : Consistent c.w c.h c.E c.Av L) (hbest : KeepsBest c L)
    (hafter : ∀ d n, d.graph.Valid → d.graph.Proper → Res E (after d n) fun r => Settled kernel allowed d r.1) :
    Res E (hostLoop after c) fun r => Sub (labelingNodes c.w c.h L) r.1.graph.Av := by
  have hwl : c.disparityGraph.right.width.toNat = c.w := rfl
  have hhl : c.disparityGraph.right.height.toNat = c.h := rfl
  have hb := hc.bounds
  let I : Device D → Prop := fun s => c.Same s.graph ∧ s.graph.Valid ∧ Sub s.graph.Av c.Av ∧ Sub (labelingNodes c.w c.h L) s.graph.Av
  have hstep : ∀ x y (s : Device D × Nat), x < c.w → y < c.h → I s.1 →
      Res E (do
        let (g, _) ← chooseBestNode s.1.graph (mkPixel x y)
        let s ← after { s.1 with graph := g } s.2
        return (s, false) : M ((Device D × Nat) × Bool)) fun r => r.2 = false ∧ I r.1.1 := by
    rintro x y ⟨s, n⟩ hx hy ⟨h1, h2, h3, h4⟩
    simp only at h1 h2 h3 h4
    have hpg := h1.proper hp h3
    have hkept := hbest _ h1 hpg h3 h4 x y
    refine Res.bind (chooseBestNode_mk h2 hpg (by rw [h1.w_eq]; exact hx) (by rw [h1.h_eq]; exact hy)).res ?_
    rintro ⟨g1, b1⟩ ⟨k1, k2, k3, -⟩
    simp only at k1 k2 k3
    have hav : g1.Av = keepBest s.graph x y := by
      funext x' y' d
      exact propext (k3 x' y' d)
    have hsub1 : Sub g1.Av s.graph.Av := by rw [hav]; exact keepBest_sub s.graph x y
    have hs1 := h1.trans k1
    have hp1 : g1.Proper := hs1.proper hp (hsub1.trans h3)
    refine Res.bind (hafter { s with graph := g1 } n k2 hp1) ?_
    rintro ⟨s2, n2⟩ hset
    simp only at hset
    refine ⟨rfl, hs1.trans hset.same, hset.valid, hset.sub.trans (hsub1.trans h3), hset.keeps _ (by rw [← hav] at hkept; exact hkept) ?_⟩
    show ArcConsistent g1.w g1.h g1.E _
    rw [hs1.w_eq, hs1.h_eq, hs1.E_eq]
    exact hL.keepable.arc
  unfold hostLoop
  refine cfor_res c.w (fun _ (s : Device D × Nat) => I s.1) (by omega) ?_ ?_ ?_ (fun s h => h.2.2.2)
  · intro k hk
    rw [cond_lt _ _ (by omega), hwl]
  · exact ⟨Same.refl c, hc, Sub.refl _, hL.sub⟩
  · intro x s hx hI
    refine Res.bind (P := fun (r : Device D × Nat) => I r.1) ?_ (fun s h => h)
    refine cfor_res c.h (fun _ (s : Device D × Nat) => I s.1) (by omega) ?_ hI ?_ (fun s h => h)
    · intro k hk
      rw [cond_lt _ _ (by omega), hhl]
    · intro y s hy hI
      refine (hstep x y s hx hy hI).mono ?_
      rintro ⟨r, b⟩ ⟨h1, h2⟩
      simp only at h1 h2
      subst h1
      exact h2

section
variable {conv : F → D} {c : ConstraintGraph F}

theorem findLabelingCl_best (hl : launch.Possible cspIteration allowed) (hc : c.Valid) (hp : c.Proper)
    (hL : Consistent c.w c.h (c.onDevice conv).E c.Av L) (hbest : KeepsBest (c.onDevice conv) L) :
    Res (Misses (D := D) cspIteration allowed) (findLabelingCl conv launch c) fun r => Sub (labelingNodes c.w c.h L) r.1.Av := by
  unfold findLabelingCl
  rw [cspSolutionCl_loop]
  have key : ∀ (d : Device D) (n : Nat), d.graph.Valid → d.graph.Proper →
      Res (Misses (D := D) cspIteration allowed) (relaunch launch (d.graph.nodesAvailability.size + 1) d n) fun r =>
        Settled cspIteration allowed d r.1 := fun d n h1 h2 =>
    (relaunch_res covers_cl hl n h1 h2 (Nat.lt_succ_of_le (avCard_le h1))).mono fun _ h => h.1
  have h1 := hostLoop_best (onDevice_valid hc conv) (onDevice_proper hp conv) hL hbest key
  have h2 := hostLoop_res (J := fun _ => True) covers_cl (onDevice_valid hc conv) (onDevice_proper hp conv) trivial fun d n h1 h2 =>
    (key d n h1 h2).mono fun _ h => ⟨h, trivial⟩
  have h3 := h1.and h2
  revert h3
  cases hostLoop (fun d n => relaunch launch (d.graph.nodesAvailability.size + 1) d n) (c.onDevice conv) with
  | error e => exact fun h => h
  | ok r =>
    rintro ⟨k1, k2, -⟩
    show Sub _ (ConstraintGraph.Av { c with nodesAvailability := r.1.graph.nodesAvailability })
    rw [(copyBack hc k2).2.2]
    exact k1

theorem findLabelingCuda_best (hl : launch.Possible cspIterationCuda allowed) (hc : c.Valid) (hp : c.Proper)
    (hL : Consistent c.w c.h (c.onDevice conv).E c.Av L) (hbest : KeepsBest (c.onDevice conv) L) :
    Res (Misses (D := D) cspIterationCuda allowed) (findLabelingCuda conv launch c) fun r => Sub (labelingNodes c.w c.h L) r.1.Av := by
  unfold findLabelingCuda
  rw [cspSolutionCuda_loop]
  have key : ∀ (d : Device D) (n : Nat), d.graph.Valid → d.graph.Proper →
      Res (Misses (D := D) cspIterationCuda allowed) (do let d ← launch n d; return (d, n + 1) : M (Device D × Nat)) fun r =>
        Settled cspIterationCuda allowed d r.1 := by
    intro d n h1 h2
    rcases (hl n d).valid covers_cuda h1 with ⟨d', group, hm, hg, ht⟩ | ⟨hm, group, P, hg, hs, hmiss⟩
    · rw [hm, bind_ok]
      exact ht.settled covers_cuda h1 h2 hg
    · rw [hm]
      exact ⟨rfl, d, group, P, h1, hg, hs, hmiss⟩
  have h1 := hostLoop_best (onDevice_valid hc conv) (onDevice_proper hp conv) hL hbest key
  have h2 := hostLoop_res (J := fun _ => True) covers_cuda (onDevice_valid hc conv) (onDevice_proper hp conv) trivial fun d n h1 h2 =>
    (key d n h1 h2).mono fun _ h => ⟨h, trivial⟩
  have h3 := h1.and h2
  revert h3
  cases hostLoop (fun d n => do let d ← launch n d; return (d, n + 1)) (c.onDevice conv) with
  | error e => exact fun h => h
  | ok r =>
    rintro ⟨k1, k2, -⟩
    show Sub _ (ConstraintGraph.Av { c with nodesAvailability := r.1.graph.nodesAvailability })
    rw [(copyBack hc k2).2.2]
    exact k1

/-- Devices find it. -/
theorem Finder.best {find : ConstraintGraph F → M (ConstraintGraph F × Bool)} (hf : Finder conv allowed find) (hc : c.Valid) (hp : c.Proper)
    (hL : Consistent c.w c.h (c.onDevice conv).E c.Av L) (hbest : KeepsBest (c.onDevice conv) L) :
    Res (fun e => ∃ kernel : Kernel D, IsKernel kernel ∧ Misses kernel allowed e) (find c) fun r =>
      r.2 = true ∧ c.Same r.1 ∧ r.1.Valid ∧ Sub r.1.Av c.Av ∧ r.1.Single ∧ Sub (labelingNodes c.w c.h L) r.1.Av := by
  have h1 := hf.res hc hp
  have h2 : Res (fun e => ∃ kernel : Kernel D, IsKernel kernel ∧ Misses kernel allowed e) (find c) fun r => Sub (labelingNodes c.w c.h L) r.1.Av := by
    cases hf with
    | cl launch h => exact (findLabelingCl_best h hc hp hL hbest).weaken fun e he => ⟨_, .inl rfl, he⟩
    | cuda launch h => exact (findLabelingCuda_best h hc hp hL hbest).weaken fun e he => ⟨_, .inr rfl, he⟩
  exact (h1.and h2).mono fun r ⟨⟨h, hb⟩, hs⟩ => ⟨hb, h.same, h.valid, h.sub, h.single, hs⟩

end
end Gpu
end SP
