import Verif.Lemmas.Greedy
import Verif.Lemmas.GpuLabel
/-!
# The labeling found by a device is the best one
-/
set_option linter.unusedSectionVars false

namespace SP
open FloatOps ConstraintGraph Gpu
variable {F D : Type} [FloatOps F] [FloatOps D] [LawfulFloat D] {kernel : Kernel D} {allowed : (Nat → Nat) → Prop}
  {launch : Launcher D} {E : Err → Prop}

theorem Res.and {α : Type} {m : M α} {P Q : α → Prop} (h : Res E m P) (h' : Res E m Q) : Res E m fun a => P a ∧ Q a := by
  cases m with
  | error e => exact h
  | ok a => exact ⟨h, h'⟩

namespace Gpu

theorem hostLoop_chosen {c : ConstraintGraph D} {after : Device D → Nat → M (Device D × Nat)} (hc : c.Valid) (hp : c.Proper)
    (hnn : ∀ x y d, le zero (c.disparityGraph.nodeQ x y d) = true)
    (hafter : ∀ d n, d.graph.Valid → d.graph.Proper → Res E (after d n) fun r => Settled kernel allowed d r.1) :
    Res E (hostLoop after c) fun r => ChosenUpTo c c.w 0 r.1.graph.Av := by
  have hwl : c.disparityGraph.right.width.toNat = c.w := rfl
  have hhl : c.disparityGraph.right.height.toNat = c.h := rfl
  have hb := hc.bounds
  let I : Nat → Nat → Device D → Prop := fun X Y s => c.Same s.graph ∧ s.graph.Valid ∧ Sub s.graph.Av c.Av ∧
    ChosenUpTo c X Y s.graph.Av
  have hstep : ∀ x y (s : Device D × Nat), x < c.w → y < c.h → I x y s.1 →
      Res E (do
        let (g, _) ← chooseBestNode s.1.graph (mkPixel x y)
        let s ← after { s.1 with graph := g } s.2
        return (s, false) : M ((Device D × Nat) × Bool)) fun r => r.2 = false ∧ I x (y + 1) r.1.1 := by
    rintro x y ⟨s, n⟩ hx hy ⟨h1, h2, h3, h4⟩
    simp only at h1 h2 h3 h4
    have hpg := h1.proper hp h3
    refine Res.bind (chooseBestNode_mk h2 hpg (by rw [h1.w_eq]; exact hx) (by rw [h1.h_eq]; exact hy)).res ?_
    rintro ⟨g1, b1⟩ ⟨k1, k2, k3, -⟩
    simp only at k1 k2 k3
    have hav : g1.Av = keepBest s.graph x y := by
      funext x' y' d
      exact propext (k3 x' y' d)
    have hsub1 : Sub g1.Av s.graph.Av := by rw [hav]; exact keepBest_sub s.graph x y
    have hs1 := h1.trans k1
    have hp1 : g1.Proper := hs1.proper hp (hsub1.trans h3)
    refine Res.bind (hafter { s with graph := g1 } n k2 hp1) ?_
    rintro ⟨s2, n2⟩ hset
    simp only at hset
    refine ⟨rfl, hs1.trans hset.same, hset.valid, hset.sub.trans (hsub1.trans h3), ?_⟩
    refine h4.step h1 hpg (fun d => hnn x y d) (by rw [← hav]; exact hset.sub) fun T hT hsub => ?_
    rw [← hav] at hsub
    refine hset.keeps _ hsub ?_
    show ArcConsistent g1.w g1.h g1.E _
    rw [hs1.w_eq, hs1.h_eq, hs1.E_eq]
    exact hT.arc
  unfold hostLoop
  refine cfor_res c.w (fun x (s : Device D × Nat) => I x 0 s.1) (by omega) ?_ ?_ ?_ ?_
  · intro k hk
    rw [cond_lt _ _ (by omega), hwl]
  · exact ⟨Same.refl c, hc, Sub.refl _, .start⟩
  · intro x s hx hI
    refine Res.bind (P := fun (r : Device D × Nat) => I x c.h r.1) ?_ ?_
    · refine cfor_res c.h (fun y (s : Device D × Nat) => I x y s.1) (by omega) ?_ hI ?_ (fun s h => h)
      · intro k hk
        rw [cond_lt _ _ (by omega), hhl]
      · intro y s hy hI
        refine (hstep x y s hx hy hI).mono ?_
        rintro ⟨r, b⟩ ⟨h1, h2⟩
        simp only at h1 h2
        subst h1
        exact h2
    · rintro s ⟨h1, h2, h3, h4⟩
      exact ⟨h1, h2, h3, h4.row hc⟩
  · rintro ⟨s, n⟩ ⟨h1, h2, h3, h4⟩
    exact h4

theorem hostLoop_follows {cl : Bool} {c : ConstraintGraph D} {after : Device D → Nat → M (Device D × Nat)} (hk : Covers kernel cl) (hone : OneGroup allowed) (hc : c.Valid)
    (hp : c.Proper) {L : Nat → Nat → Nat} (hL : Reachable c L)
    (hnn : ∀ x y d, le zero (c.disparityGraph.nodeQ x y d) = true)
    (hafter : ∀ d n, d.graph.Valid → d.graph.Proper → Res E (after d n) fun r => Settled kernel allowed d r.1) :
    Res E (hostLoop after c) fun r => FollowsUpTo c L c.w 0 r.1.graph.Av := by
  have hwl : c.disparityGraph.right.width.toNat = c.w := rfl
  have hhl : c.disparityGraph.right.height.toNat = c.h := rfl
  have hb := hc.bounds
  let I : Nat → Nat → Device D → Prop := fun X Y s => c.Same s.graph ∧ s.graph.Valid ∧ Sub s.graph.Av c.Av ∧
    FollowsUpTo c L X Y s.graph.Av
  have hstep : ∀ x y (s : Device D × Nat), x < c.w → y < c.h → I x y s.1 →
      Res E (do
        let (g, _) ← chooseBestNode s.1.graph (mkPixel x y)
        let s ← after { s.1 with graph := g } s.2
        return (s, false) : M ((Device D × Nat) × Bool)) fun r => r.2 = false ∧ I x (y + 1) r.1.1 := by
    rintro x y ⟨s, n⟩ hx hy ⟨h1, h2, h3, h4⟩
    simp only at h1 h2 h3 h4
    have hpg := h1.proper hp h3
    refine Res.bind (chooseBestNode_mk h2 hpg (by rw [h1.w_eq]; exact hx) (by rw [h1.h_eq]; exact hy)).res ?_
    rintro ⟨g1, b1⟩ ⟨k1, k2, k3, -⟩
    simp only at k1 k2 k3
    have hav : g1.Av = keepBest s.graph x y := by
      funext x' y' d
      exact propext (k3 x' y' d)
    have hsub1 : Sub g1.Av s.graph.Av := by rw [hav]; exact keepBest_sub s.graph x y
    have hs1 := h1.trans k1
    have hp1 : g1.Proper := hs1.proper hp (hsub1.trans h3)
    refine Res.bind (hafter { s with graph := g1 } n k2 hp1) ?_
    rintro ⟨s2, n2⟩ hset
    simp only at hset
    refine ⟨rfl, hs1.trans hset.same, hset.valid, hset.sub.trans (hsub1.trans h3), ?_⟩
    refine h4.step hx hy hL h1 hpg (fun d => hnn x y d) (by rw [← hav]; exact hset.sub) (fun T hT hsub => ?_) ?_
    rotate_left
    · have := hset.arc_one hk hone hp1
      have e1 : ({ s with graph := g1 } : Device D).graph = g1 := rfl
      rw [e1, hs1.w_eq, hs1.h_eq, hs1.E_eq] at this
      exact this
    rw [← hav] at hsub
    refine hset.keeps _ hsub ?_
    show ArcConsistent g1.w g1.h g1.E _
    rw [hs1.w_eq, hs1.h_eq, hs1.E_eq]
    exact hT.arc
  unfold hostLoop
  refine cfor_res c.w (fun x (s : Device D × Nat) => I x 0 s.1) (by omega) ?_ ?_ ?_ ?_
  · intro k hk
    rw [cond_lt _ _ (by omega), hwl]
  · exact ⟨Same.refl c, hc, Sub.refl _, .start hL⟩
  · intro x s hx hI
    refine Res.bind (P := fun (r : Device D × Nat) => I x c.h r.1) ?_ ?_
    · refine cfor_res c.h (fun y (s : Device D × Nat) => I x y s.1) (by omega) ?_ hI ?_ (fun s h => h)
      · intro k hk
        rw [cond_lt _ _ (by omega), hhl]
      · intro y s hy hI
        refine (hstep x y s hx hy hI).mono ?_
        rintro ⟨r, b⟩ ⟨h1, h2⟩
        simp only at h1 h2
        subst h1
        exact h2
    · rintro s ⟨h1, h2, h3, h4⟩
      exact ⟨h1, h2, h3, h4.row hc⟩
  · rintro ⟨s, n⟩ ⟨h1, h2, h3, h4⟩
    exact h4

section
variable {conv : F → D} {c : ConstraintGraph F}

theorem onDevice_nodeQ (hf : Faithful conv) {g : DisparityGraph F} (hg : g.Valid) (x y d : Nat) :
    (g.onDevice conv).nodeQ x y d = conv (g.nodeQ x y d) := by
  have hat : (g.onDevice conv).left.at (x + d) y = g.left.at (x + d) y := by
    unfold Image.at
    rw [show (g.onDevice conv).left.width = g.right.width from rfl, ← hg.width_eq]
    rfl
  unfold DisparityGraph.nodeQ DisparityGraph.phi
  rw [hf.add, hf.add, hf.add, hf.add, hf.mul]
  unfold sqr
  rw [hf.mul, hf.sub, hf.ofNat, hf.ofNat, hat]
  unfold DisparityGraph.onDevice
  simp only [getD_map_conv hf]
  rfl

theorem Faithful.lt [LawfulFloat F] (hf : Faithful conv) (a b : F) : FloatOps.lt (conv a) (conv b) = FloatOps.lt a b := by
  rw [Bool.eq_iff_iff, LawfulFloat.lt_iff, LawfulFloat.lt_iff, hf.le]

theorem notWorse_onDevice [LawfulFloat F] (hf : Faithful conv) (hc : c.Valid) {x y d d' : Nat} :
    NotWorse (c.onDevice conv) x y d d' ↔ NotWorse c x y d d' := by
  have e : ∀ x y d, (c.onDevice conv).disparityGraph.nodeQ x y d = conv (c.disparityGraph.nodeQ x y d) :=
    fun x y d => onDevice_nodeQ hf hc.graph x y d
  unfold NotWorse
  rw [e, e, hf.le, hf.lt]

theorem ChosenUpTo.ofDevice [LawfulFloat F] (hf : Faithful conv) (hc : c.Valid) {X Y : Nat} {S : NodeSet}
    (h : ChosenUpTo (c.onDevice conv) X Y S) : ChosenUpTo c X Y S := by
  have he : (c.onDevice conv).E = c.E := onDevice_E hf hc
  have hk : ∀ T, Keepable c T → Keepable (c.onDevice conv) T := fun T hT => ⟨hT.sub, by rw [he]; exact hT.arc, hT.alive⟩
  exact ⟨fun T hT => h.keeps T (hk T hT), fun x y hx hy hb T hT hall d d' hd hd' =>
    (notWorse_onDevice hf hc).1 (h.best x y hx hy hb T (hk T hT) hall d d' hd hd'), fun hb d d' hd hd' =>
    (notWorse_onDevice hf hc).1 (h.first hb d d' hd hd'), h.whole⟩

theorem Reachable.onDevice [LawfulFloat F] (hf : Faithful conv) (hc : c.Valid) {L : Nat → Nat → Nat}
    (h : Reachable c L) : Reachable (c.onDevice conv) L := by
  have he : (c.onDevice conv).E = c.E := onDevice_E hf hc
  have hk : ∀ T, Keepable (c.onDevice conv) T → Keepable c T := fun T hT => ⟨hT.sub, by rw [← he]; exact hT.arc, hT.alive⟩
  exact ⟨by rw [he]; exact h.cons, fun x y hx hy T hT hall d' hd' =>
    (notWorse_onDevice hf hc).2 (h.best x y hx hy T (hk T hT) hall d' hd'), fun d' hd' =>
    (notWorse_onDevice hf hc).2 (h.first d' hd')⟩

theorem onDevice_nodeQ_nonneg (hf : Faithful conv) (hc : c.Valid) (h : ∀ x y d, le zero (c.disparityGraph.nodeQ x y d) = true) (x y d : Nat) :
    le zero ((c.onDevice conv).disparityGraph.nodeQ x y d) = true := by
  show le zero ((c.disparityGraph.onDevice conv).nodeQ x y d) = true
  rw [onDevice_nodeQ hf hc.graph, show (zero : D) = conv zero by unfold FloatOps.zero; rw [hf.ofNat], hf.le]
  exact h x y d

theorem findLabelingCl_chosen (hl : launch.Possible cspIteration allowed) (hc : c.Valid) (hp : c.Proper)
    (hnn : ∀ x y d, le zero ((c.onDevice conv).disparityGraph.nodeQ x y d) = true) :
    Res (Misses (D := D) cspIteration allowed) (findLabelingCl conv launch c) fun r =>
      ChosenUpTo (c.onDevice conv) c.w 0 r.1.Av := by
  unfold findLabelingCl
  rw [cspSolutionCl_loop]
  have key : ∀ (d : Device D) (n : Nat), d.graph.Valid → d.graph.Proper →
      Res (Misses (D := D) cspIteration allowed) (relaunch launch (d.graph.nodesAvailability.size + 1) d n) fun r =>
        Settled cspIteration allowed d r.1 := fun d n h1 h2 =>
    (relaunch_res covers_cl hl n h1 h2 (Nat.lt_succ_of_le (avCard_le h1))).mono fun _ h => h.1
  have h1 := hostLoop_chosen (onDevice_valid hc conv) (onDevice_proper hp conv) hnn key
  have h2 := hostLoop_res (J := fun _ => True) covers_cl (onDevice_valid hc conv) (onDevice_proper hp conv) trivial fun d n h1 h2 =>
    (key d n h1 h2).mono fun _ h => ⟨h, trivial⟩
  have h3 := h1.and h2
  revert h3
  cases hostLoop (fun d n => relaunch launch (d.graph.nodesAvailability.size + 1) d n) (c.onDevice conv) with
  | error e => exact fun h => h
  | ok r =>
    rintro ⟨k1, k2, -⟩
    show ChosenUpTo _ _ _ (ConstraintGraph.Av { c with nodesAvailability := r.1.graph.nodesAvailability })
    rw [(copyBack hc k2).2.2]
    exact k1

theorem findLabelingCuda_chosen (hl : launch.Possible cspIterationCuda allowed) (hc : c.Valid) (hp : c.Proper)
    (hnn : ∀ x y d, le zero ((c.onDevice conv).disparityGraph.nodeQ x y d) = true) :
    Res (Misses (D := D) cspIterationCuda allowed) (findLabelingCuda conv launch c) fun r =>
      ChosenUpTo (c.onDevice conv) c.w 0 r.1.Av := by
  unfold findLabelingCuda
  rw [cspSolutionCuda_loop]
  have key : ∀ (d : Device D) (n : Nat), d.graph.Valid → d.graph.Proper →
      Res (Misses (D := D) cspIterationCuda allowed) (do let d ← launch n d; return (d, n + 1) : M (Device D × Nat)) fun r =>
        Settled cspIterationCuda allowed d r.1 := by
    intro d n h1 h2
    rcases (hl n d).valid covers_cuda h1 with ⟨d', group, hm, hg, ht⟩ | ⟨hm, group, P, hg, hs, hmiss⟩
    · rw [hm, bind_ok]
      exact ht.settled covers_cuda h1 h2 hg
    · rw [hm]
      exact ⟨rfl, d, group, P, h1, hg, hs, hmiss⟩
  have h1 := hostLoop_chosen (onDevice_valid hc conv) (onDevice_proper hp conv) hnn key
  have h2 := hostLoop_res (J := fun _ => True) covers_cuda (onDevice_valid hc conv) (onDevice_proper hp conv) trivial fun d n h1 h2 =>
    (key d n h1 h2).mono fun _ h => ⟨h, trivial⟩
  have h3 := h1.and h2
  revert h3
  cases hostLoop (fun d n => do let d ← launch n d; return (d, n + 1)) (c.onDevice conv) with
  | error e => exact fun h => h
  | ok r =>
    rintro ⟨k1, k2, -⟩
    show ChosenUpTo _ _ _ (ConstraintGraph.Av { c with nodesAvailability := r.1.graph.nodesAvailability })
    rw [(copyBack hc k2).2.2]
    exact k1

theorem findLabelingCl_follows (hl : launch.Possible cspIteration allowed) (hone : OneGroup allowed) (hc : c.Valid)
    (hp : c.Proper) {L : Nat → Nat → Nat} (hL : Reachable (c.onDevice conv) L)
    (hnn : ∀ x y d, le zero ((c.onDevice conv).disparityGraph.nodeQ x y d) = true) :
    Res (Misses (D := D) cspIteration allowed) (findLabelingCl conv launch c) fun r =>
      r.1.Av = labelingNodes c.w c.h L := by
  unfold findLabelingCl
  rw [cspSolutionCl_loop]
  have key : ∀ (d : Device D) (n : Nat), d.graph.Valid → d.graph.Proper →
      Res (Misses (D := D) cspIteration allowed) (relaunch launch (d.graph.nodesAvailability.size + 1) d n) fun r =>
        Settled cspIteration allowed d r.1 := fun d n h1 h2 =>
    (relaunch_res covers_cl hl n h1 h2 (Nat.lt_succ_of_le (avCard_le h1))).mono fun _ h => h.1
  have h1 := hostLoop_follows covers_cl hone (onDevice_valid hc conv) (onDevice_proper hp conv) hL hnn key
  have h2 := hostLoop_res (J := fun _ => True) covers_cl (onDevice_valid hc conv) (onDevice_proper hp conv) trivial fun d n h1 h2 =>
    (key d n h1 h2).mono fun _ h => ⟨h, trivial⟩
  have h3 := h1.and h2
  revert h3
  cases hostLoop (fun d n => relaunch launch (d.graph.nodesAvailability.size + 1) d n) (c.onDevice conv) with
  | error e => exact fun h => h
  | ok r =>
    rintro ⟨k1, k2, -⟩
    show ConstraintGraph.Av { c with nodesAvailability := r.1.graph.nodesAvailability } = _
    rw [(copyBack hc k2).2.2]
    exact k1.exact

theorem findLabelingCuda_follows (hl : launch.Possible cspIterationCuda allowed) (hone : OneGroup allowed) (hc : c.Valid)
    (hp : c.Proper) {L : Nat → Nat → Nat} (hL : Reachable (c.onDevice conv) L)
    (hnn : ∀ x y d, le zero ((c.onDevice conv).disparityGraph.nodeQ x y d) = true) :
    Res (Misses (D := D) cspIterationCuda allowed) (findLabelingCuda conv launch c) fun r =>
      r.1.Av = labelingNodes c.w c.h L := by
  unfold findLabelingCuda
  rw [cspSolutionCuda_loop]
  have key : ∀ (d : Device D) (n : Nat), d.graph.Valid → d.graph.Proper →
      Res (Misses (D := D) cspIterationCuda allowed) (do let d ← launch n d; return (d, n + 1) : M (Device D × Nat)) fun r =>
        Settled cspIterationCuda allowed d r.1 := by
    intro d n h1 h2
    rcases (hl n d).valid covers_cuda h1 with ⟨d', group, hm, hg, ht⟩ | ⟨hm, group, P, hg, hs, hmiss⟩
    · rw [hm, bind_ok]
      exact ht.settled covers_cuda h1 h2 hg
    · rw [hm]
      exact ⟨rfl, d, group, P, h1, hg, hs, hmiss⟩
  have h1 := hostLoop_follows covers_cuda hone (onDevice_valid hc conv) (onDevice_proper hp conv) hL hnn key
  have h2 := hostLoop_res (J := fun _ => True) covers_cuda (onDevice_valid hc conv) (onDevice_proper hp conv) trivial fun d n h1 h2 =>
    (key d n h1 h2).mono fun _ h => ⟨h, trivial⟩
  have h3 := h1.and h2
  revert h3
  cases hostLoop (fun d n => do let d ← launch n d; return (d, n + 1)) (c.onDevice conv) with
  | error e => exact fun h => h
  | ok r =>
    rintro ⟨k1, k2, -⟩
    show ConstraintGraph.Av { c with nodesAvailability := r.1.graph.nodesAvailability } = _
    rw [(copyBack hc k2).2.2]
    exact k1.exact

end
end Gpu
end SP
