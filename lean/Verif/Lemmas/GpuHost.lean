import Verif.Lemmas.GpuGroup
import Verif.Lemmas.GpuOutcome
import Verif.Lemmas.ParMap
import Verif.Lemmas.Closure
/-!
# The host that launches kernels
-/
set_option linter.unusedSectionVars false

namespace SP
open FloatOps ConstraintGraph Gpu
variable {F D : Type} [FloatOps F] [FloatOps D] {kernel : Kernel D} {cl : Bool} {allowed : (Nat → Nat) → Prop}
  {launch : Launcher D} {d d' : Device D} {E : Err → Prop}

/-- Some kernels have been launched, at least one; the last of them was launched at `dl`. -/
structure Settled (kernel : Kernel D) (allowed : (Nat → Nat) → Prop) (d d' : Device D) : Prop where
  same : d.graph.Same d'.graph
  valid : d'.graph.Valid
  sub : Sub d'.graph.Av d.graph.Av
  keeps : ∀ S, Sub S d.graph.Av → ArcConsistent d.graph.w d.graph.h d.graph.E S → Sub S d'.graph.Av
  last : ∃ dl group, d.graph.Same dl.graph ∧ dl.graph.Valid ∧ Sub dl.graph.Av d.graph.Av ∧ allowed group ∧
    LaunchTo kernel group dl d'

theorem LaunchTo.settled {group : Nat → Nat} (hk : Covers kernel cl) (hc : d.graph.Valid) (hp : d.graph.Proper) (hg : allowed group)
    (h : LaunchTo kernel group d d') : Settled kernel allowed d d' := by
  obtain ⟨h1, h2, h3⟩ := h.basic hk hc
  exact ⟨h1, h2, h3, fun S hS harc => h.keeps hk hc hp hS harc, d, group, Same.refl _, hc, Sub.refl _, hg, h⟩

theorem Settled.trans {d1 d2 d3 : Device D} (h1 : Settled kernel allowed d1 d2) (h2 : Settled kernel allowed d2 d3) :
    Settled kernel allowed d1 d3 := by
  obtain ⟨dl, group, e1, e2, e3, e4, e5⟩ := h2.last
  refine ⟨h1.same.trans h2.same, h2.valid, h2.sub.trans h1.sub, fun S hS harc => ?_,
    dl, group, h1.same.trans e1, e2, e3.trans h1.sub, e4, e5⟩
  refine h2.keeps S (h1.keeps S hS harc) ?_
  rw [h1.same.w_eq, h1.same.h_eq, h1.same.E_eq]
  exact harc

/-- If the last launch could not change anything then it did nothing, and the graph is arc consistent. -/
theorem Settled.arc (hk : Covers kernel cl) (hp : d.graph.Proper) (h : Settled kernel allowed d d') (hsg : d.graph.Single)
    (hal : AllAlive d.graph.w d.graph.h d'.graph.Av) : ArcConsistent d.graph.w d.graph.h d.graph.E d'.graph.Av := by
  obtain ⟨dl, group, e1, e2, e3, -, e5⟩ := h.last
  obtain ⟨-, -, b3⟩ := e5.basic hk e2
  have hsub : Sub dl.graph.Av d'.graph.Av := by
    intro x y dd hav
    have h0 := e3 _ _ _ hav
    obtain ⟨d2, hd2⟩ := hal x y h0.1 h0.2.1
    rwa [hsg x y dd d2 h0 (e3 _ _ _ (b3 _ _ _ hd2))]
  have hst := (e5.stable hk e2 (e1.proper hp e3) hsub).1
  have : d'.graph.Av = dl.graph.Av := b3.antisymm hsub
  rw [this, ← e1.w_eq, ← e1.h_eq, ← e1.E_eq]
  exact hst

/-- All the work items belong to the same group. -/
def OneGroup (allowed : (Nat → Nat) → Prop) : Prop := ∀ group, allowed group → ∀ i j, group i = group j

theorem Settled.arc_one (hk : Covers kernel cl) (hone : OneGroup allowed) (hp : d.graph.Proper) (h : Settled kernel allowed d d') :
    ArcConsistent d.graph.w d.graph.h d.graph.E d'.graph.Av := by
  obtain ⟨dl, group, e1, e2, e3, e4, e5⟩ := h.last
  have := e5.oneGroup hk e2 (e1.proper hp e3) fun i j _ _ => hone group e4 i j
  rwa [h.same.w_eq, h.same.h_eq, h.same.E_eq] at this

/-- The number of nodes that are available. -/
noncomputable def avCard (c : ConstraintGraph D) : Nat := boxCard c.w c.h c.levels c.Av

theorem avCard_le {c : ConstraintGraph D} (hc : c.Valid) : avCard c ≤ c.nodesAvailability.size := by
  classical
  unfold avCard boxCard
  refine Nat.le_trans (Finset.card_filter_le _ _) ?_
  rw [Finset.card_product, Finset.card_product, Finset.card_range, Finset.card_range, Finset.card_range, hc.size]
  unfold ConstraintGraph.w ConstraintGraph.h ConstraintGraph.levels
  rw [Nat.mul_assoc]

/-- A launch that tells of changes has removed some nodes. -/
theorem LaunchTo.card_lt {group : Nat → Nat} (hk : Covers kernel true) (hc : d.graph.Valid) (hp : d.graph.Proper)
    (ht : LaunchTo kernel group d d') (hch : d'.changed 1 = true) : avCard d'.graph < avCard d.graph := by
  obtain ⟨h1, h2, h3⟩ := ht.basic hk hc
  unfold avCard
  rw [h1.w_eq, h1.h_eq, show d'.graph.levels = d.graph.levels by unfold ConstraintGraph.levels; rw [h1.1]]
  refine Nat.lt_of_le_of_ne (boxCard_mono h3) fun he => ?_
  have := eq_of_boxCard h3 (fun x y dd h => ⟨h.1, h.2.1, h.2.2.1⟩) he
  have := (ht.stable hk hc hp (by rw [this]; exact Sub.refl _)).2 rfl
  rw [hch] at this
  cases this

/-- The only error of the host: work items miss each other at a barrier in some launch. -/
def Misses (kernel : Kernel D) (allowed : (Nat → Nat) → Prop) (e : Err) : Prop :=
  e = .ub ∧ ∃ (d : Device D) (group : Nat → Nat) (P : Pool Unit), d.graph.Valid ∧ allowed group ∧
    Steps false group d.items (d.launch kernel) P ∧ Missed group d.items P

/-- The loop of launches ends. -/
theorem relaunch_res (hk : Covers kernel true) (hl : launch.Possible kernel allowed) {fuel : Nat} (n : Nat)
    (hc : d.graph.Valid) (hp : d.graph.Proper) (hfuel : avCard d.graph < fuel) :
    Res (Misses kernel allowed) (relaunch launch fuel d n) fun r => Settled kernel allowed d r.1 ∧ r.1.changed 1 = false := by
  induction fuel generalizing d n with
  | zero => omega
  | succ fuel ih =>
    unfold relaunch
    rcases (hl n d).valid hk hc with ⟨d', group, hm, hg, ht⟩ | ⟨hm, group, P, hg, hs, hmiss⟩
    · rw [hm, bind_ok]
      have hs := ht.settled hk hc hp hg
      cases hch : d'.changed 1
      · simp only [Bool.false_eq_true, if_false]
        exact ⟨hs, hch⟩
      · simp only [if_true]
        have hlt := ht.card_lt hk hc hp hch
        refine (ih (n + 1) hs.valid (hs.same.proper hp hs.sub) (by omega)).mono ?_
        rintro r ⟨h1, h2⟩
        exact ⟨hs.trans h1, h2⟩
    · rw [hm]
      exact ⟨rfl, d, group, P, hc, hg, hs, hmiss⟩

namespace Gpu

/-- The loops of the host. -/
def hostLoop (after : Device D → Nat → M (Device D × Nat)) (graph : ConstraintGraph D) : M (Device D × Nat) :=
  cfor graph.disparityGraph.right.width.toNat 0
    (fun x => decide (x < graph.disparityGraph.right.width)) inc
    (fun x (s : Device D × Nat) => do
      let s ← cfor graph.disparityGraph.right.height.toNat 0
        (fun y => decide (y < graph.disparityGraph.right.height)) inc
        (fun y (s : Device D × Nat) => do
          let (g, _) ← chooseBestNode s.1.graph { x := x, y := y }
          let s ← after { s.1 with graph := g } s.2
          return (s, false))
        s
      return (s, false))
    ({ graph := graph, changed := fun _ => false }, 0)

theorem cspSolutionCl_loop (launch : Launcher D) (graph : ConstraintGraph D) :
    cspSolutionCl launch graph =
      (hostLoop (fun d n => relaunch launch (d.graph.nodesAvailability.size + 1) d n) graph) >>= fun r =>
        pure (r.1.graph, r.1.changed 1) := rfl

theorem cspSolutionCuda_loop (launch : Launcher D) (graph : ConstraintGraph D) :
    cspSolutionCuda launch graph =
      (hostLoop (fun d n => do let d ← launch n d; return (d, n + 1)) graph) >>= fun r => pure r.1.graph := by
  unfold cspSolutionCuda hostLoop
  have : ∀ (n : Nat) (d : Device D), (do let d ← launch n d; return ((d, n + 1), false) : M ((Device D × Nat) × Bool)) =
      ((do let d ← launch n d; return (d, n + 1)) >>= fun s => pure (s, false)) := by
    intro n d
    cases launch n d <;> rfl
  simp only [this]

/-- What is known when the host has finished. -/
structure Labeled (allowed : (Nat → Nat) → Prop) (c c' : ConstraintGraph D) : Prop where
  same : c.Same c'
  valid : c'.Valid
  sub : Sub c'.Av c.Av
  single : c'.Single
  arc : AllAlive c.w c.h c'.Av → ArcConsistent c.w c.h c.E c'.Av
  arc_one : OneGroup allowed → ArcConsistent c.w c.h c.E c'.Av

theorem hostLoop_res {c : ConstraintGraph D} {after : Device D → Nat → M (Device D × Nat)} (hk : Covers kernel cl)
    (hc : c.Valid) (hp : c.Proper) {J : Device D → Prop} (hJ : J { graph := c, changed := fun _ => false })
    (hafter : ∀ d n, d.graph.Valid → d.graph.Proper → Res E (after d n) fun r => Settled kernel allowed d r.1 ∧ J r.1) :
    Res E (hostLoop after c) fun r => Labeled allowed c r.1.graph ∧ J r.1 := by
  have hwp : 0 < c.w := hc.graph.width_pos
  have hhp : 0 < c.h := hc.graph.height_pos
  have hwl : c.disparityGraph.right.width.toNat = c.w := rfl
  have hhl : c.disparityGraph.right.height.toNat = c.h := rfl
  have hb := hc.bounds
  let I : Nat → Nat → Device D → Prop := fun X Y s => c.Same s.graph ∧ s.graph.Valid ∧ Sub s.graph.Av c.Av ∧
    (∀ x y d d', x < c.w → y < c.h → Before X Y x y → s.graph.Av x y d → s.graph.Av x y d' → d = d') ∧
    ((∀ x y, x < c.w → y < c.h → Before X Y x y) →
      (AllAlive c.w c.h s.graph.Av → ArcConsistent c.w c.h c.E s.graph.Av) ∧
      (OneGroup allowed → ArcConsistent c.w c.h c.E s.graph.Av)) ∧ J s
  have hrow : ∀ x s, I x c.h s → I (x + 1) 0 s := by
    rintro x s ⟨h1, h2, h3, h4, h5, h6⟩
    have hb : ∀ x' y', y' < c.h → (Before (x + 1) 0 x' y' ↔ Before x c.h x' y') := by
      intro x' y' hy'
      unfold Before
      constructor
      · rintro (h | ⟨-, h⟩)
        · rcases Nat.lt_or_eq_of_le (Nat.le_of_lt_succ h) with h | h
          · exact .inl h
          · exact .inr ⟨h, hy'⟩
        · omega
      · rintro (h | ⟨h, -⟩) <;> left <;> omega
    refine ⟨h1, h2, h3, fun x' y' d d' hx' hy' hbef => ?_, fun hall => ?_, h6⟩
    · rw [hb x' y' hy'] at hbef
      exact h4 x' y' d d' hx' hy' hbef
    · refine h5 fun x' y' hx' hy' => ?_
      rw [← hb x' y' hy']
      exact hall x' y' hx' hy'
  have hstep : ∀ x y (s : Device D × Nat), x < c.w → y < c.h → I x y s.1 →
      Res E (do
        let (g, _) ← chooseBestNode s.1.graph (mkPixel x y)
        let s ← after { s.1 with graph := g } s.2
        return (s, false) : M ((Device D × Nat) × Bool)) fun r => r.2 = false ∧ I x (y + 1) r.1.1 := by
    rintro x y ⟨s, n⟩ hx hy ⟨h1, h2, h3, h4, -, -⟩
    simp only at h1 h2 h3 h4
    have hpg := h1.proper hp h3
    refine Res.bind (chooseBestNode_mk h2 hpg (by rw [h1.w_eq]; exact hx) (by rw [h1.h_eq]; exact hy)).res ?_
    rintro ⟨g1, b1⟩ ⟨k1, k2, k3, -⟩
    simp only at k1 k2 k3
    have hav : g1.Av = keepBest s.graph x y := by
      funext x' y' d
      exact propext (k3 x' y' d)
    have hsub1 : Sub g1.Av s.graph.Av := by rw [hav]; exact keepBest_sub s.graph x y
    have hs1 := h1.trans k1
    have hp1 : g1.Proper := hs1.proper hp (hsub1.trans h3)
    refine Res.bind (hafter { s with graph := g1 } n k2 hp1) ?_
    rintro ⟨s2, n2⟩ ⟨hset, hJ2⟩
    simp only at hset hJ2
    have huniq : ∀ x' y' d d', x' < c.w → y' < c.h → Before x (y + 1) x' y' → g1.Av x' y' d → g1.Av x' y' d' → d = d' := by
      intro x' y' d d' hx' hy' hbef hd hd'
      rw [hav] at hd hd'
      by_cases e : x' = x ∧ y' = y
      · exact (hd.2 e).unique (hd'.2 e)
      · refine h4 x' y' d d' hx' hy' ?_ hd.1 hd'.1
        rcases hbef with h | ⟨rfl, h⟩
        · exact .inl h
        · exact .inr ⟨rfl, by have : y' ≠ y := fun e' => e ⟨rfl, e'⟩; omega⟩
    refine ⟨rfl, hs1.trans hset.same, hset.valid, hset.sub.trans (hsub1.trans h3), ?_, ?_, hJ2⟩
    · intro x' y' d d' hx' hy' hbef hd hd'
      exact huniq x' y' d d' hx' hy' hbef (hset.sub _ _ _ hd) (hset.sub _ _ _ hd')
    · intro hall
      have hsg : g1.Single := by
        intro x' y' d d' hd hd'
        have h0 := h3 _ _ _ (hsub1 _ _ _ hd)
        exact huniq x' y' d d' h0.1 h0.2.1 (hall x' y' h0.1 h0.2.1) hd hd'
      have a1 := hset.arc hk hp1 hsg
      have a2 := fun hone => hset.arc_one hk hone hp1
      rw [hs1.w_eq, hs1.h_eq, hs1.E_eq] at a1
      refine ⟨a1, fun hone => ?_⟩
      have := a2 hone
      rwa [hs1.w_eq, hs1.h_eq, hs1.E_eq] at this
  unfold hostLoop
  refine cfor_res c.w (fun x (s : Device D × Nat) => I x 0 s.1) (by omega) ?_ ?_ ?_ ?_
  · intro k hk
    rw [cond_lt _ _ (by omega), hwl]
  · refine ⟨Same.refl c, hc, Sub.refl _, ?_, ?_, hJ⟩
    · rintro x y d d' - - (h | ⟨-, h⟩) <;> omega
    · intro h
      rcases h 0 0 hwp hhp with h | ⟨-, h⟩ <;> omega
  · intro x s hx hI
    refine Res.bind (P := fun (r : Device D × Nat) => I x c.h r.1) ?_ ?_
    · refine cfor_res c.h (fun y (s : Device D × Nat) => I x y s.1) (by omega) ?_ hI ?_ (fun s h => h)
      · intro k hk
        rw [cond_lt _ _ (by omega), hhl]
      · intro y s hy hI
        refine (hstep x y s hx hy hI).mono ?_
        rintro ⟨r, b⟩ ⟨h1, h2⟩
        simp only at h1 h2
        subst h1
        exact h2
    · intro s hs
      exact hrow x s.1 hs
  · rintro ⟨s, n⟩ ⟨h1, h2, h3, h4, h5, h6⟩
    obtain ⟨h7, h8⟩ := h5 fun x y hx hy => .inl hx
    refine ⟨⟨h1, h2, h3, fun x y d d' hd hd' => ?_, h7, h8⟩, h6⟩
    have hd0 := h3 _ _ _ hd
    exact h4 x y d d' hd0.1 hd0.2.1 (.inl hd0.1) hd hd'

theorem cspSolutionCl_res (hl : launch.Possible cspIteration allowed) {c : ConstraintGraph D} (hc : c.Valid) (hp : c.Proper) :
    Res (Misses (D := D) cspIteration allowed) (cspSolutionCl launch c) fun r => Labeled allowed c r.1 ∧ r.2 = false := by
  rw [cspSolutionCl_loop]
  refine Res.bind (hostLoop_res (J := fun d => d.changed 1 = false) covers_cl hc hp rfl fun d n h1 h2 =>
    relaunch_res covers_cl hl n h1 h2 (Nat.lt_succ_of_le (avCard_le h1))) ?_
  exact fun r hr => hr

theorem cspSolutionCuda_res (hl : launch.Possible cspIterationCuda allowed) {c : ConstraintGraph D} (hc : c.Valid) (hp : c.Proper) :
    Res (Misses (D := D) cspIterationCuda allowed) (cspSolutionCuda launch c) fun r => Labeled allowed c r := by
  rw [cspSolutionCuda_loop]
  refine Res.bind (hostLoop_res (J := fun _ => True) covers_cuda hc hp trivial fun d n h1 h2 => ?_) fun r hr => hr.1
  rcases (hl n d).valid covers_cuda h1 with ⟨d', group, hm, hg, ht⟩ | ⟨hm, group, P, hg, hs, hmiss⟩
  · rw [hm, bind_ok]
    exact ⟨ht.settled covers_cuda h1 h2 hg, trivial⟩
  · rw [hm]
    exact ⟨rfl, d, group, P, h1, hg, hs, hmiss⟩

/-! ## Copying to the device and back -/
section
variable {conv : F → D} {c : ConstraintGraph F}

theorem onDevice_av (conv : F → D) (c : ConstraintGraph F) : (c.onDevice conv).Av = c.Av := rfl

theorem onDevice_graph_valid {g : DisparityGraph F} (hg : g.Valid) (conv : F → D) : (g.onDevice conv).Valid where
  width_eq := rfl
  height_eq := rfl
  width_pos := hg.width_pos
  height_pos := hg.height_pos
  levels_pos := hg.levels_pos
  levels_le := hg.levels_le
  left_size := hg.left_size
  right_size := hg.right_size
  rep_size := by
    show (g.reparametrization.map conv).size = _
    rw [Array.size_map]
    exact hg.rep_size
  fits := hg.fits

theorem onDevice_valid (hc : c.Valid) (conv : F → D) : (c.onDevice conv).Valid where
  lowest :=
    { graph := onDevice_graph_valid hc.graph conv
      pixels_size := by
        show (c.lowestPenalties.pixels.map conv).size = _
        rw [Array.size_map, hc.lowest.pixels_size, hc.same]
        rfl
      neighborhoods_size := by
        show (c.lowestPenalties.neighborhoods.map conv).size = _
        rw [Array.size_map, hc.lowest.neighborhoods_size, hc.same]
        rfl }
  same := rfl
  size := hc.size

theorem onDevice_proper (hp : c.Proper) (conv : F → D) : (c.onDevice conv).Proper := hp

/-- Numbers are converted without any loss. -/
structure Faithful (conv : F → D) : Prop where
  add : ∀ a b, conv (FloatOps.add a b) = FloatOps.add (conv a) (conv b)
  sub : ∀ a b, conv (FloatOps.sub a b) = FloatOps.sub (conv a) (conv b)
  mul : ∀ a b, conv (FloatOps.mul a b) = FloatOps.mul (conv a) (conv b)
  ofNat : ∀ n, conv (FloatOps.ofNat n) = FloatOps.ofNat n
  le : ∀ a b, FloatOps.le (conv a) (conv b) = FloatOps.le a b

theorem Faithful.id : Faithful (fun a : F => a) := ⟨fun _ _ => rfl, fun _ _ => rfl, fun _ _ => rfl, fun _ => rfl, fun _ _ => rfl⟩

theorem getD_map_conv (hf : Faithful conv) (a : Array F) (i : Nat) :
    (a.map conv).getD i zero = conv (a.getD i zero) := by
  by_cases h : i < a.size
  · simp [Array.getD, h]
  · simp [Array.getD, h, FloatOps.zero, hf.ofNat]

theorem onDevice_edgeQ (hf : Faithful conv) (g : DisparityGraph F) (x y k d d' : Nat) :
    (g.onDevice conv).edgeQ x y k d d' = conv (g.edgeQ x y k d d') := by
  unfold DisparityGraph.edgeQ DisparityGraph.phi
  rw [hf.sub, hf.sub, hf.mul]
  unfold sqr
  rw [hf.mul, hf.sub, hf.ofNat, hf.ofNat]
  unfold DisparityGraph.onDevice
  simp only [getD_map_conv hf]
  rfl

theorem onDevice_E (hf : Faithful conv) (hc : c.Valid) : (c.onDevice conv).E = c.E := by
  funext x y k d d'
  unfold ConstraintGraph.E
  have e1 : (c.onDevice conv).disparityGraph.IsEdge x y k d d' = c.disparityGraph.IsEdge x y k d d' := rfl
  have e2 : (c.onDevice conv).lowestPenalties.edgeMin x y k = conv (c.lowestPenalties.edgeMin x y k) := by
    unfold LowestPenalties.edgeMin
    rw [show c.lowestPenalties.graph.h = c.disparityGraph.h by rw [hc.same]]
    exact getD_map_conv hf _ _
  rw [e1, e2, show (c.onDevice conv).disparityGraph = c.disparityGraph.onDevice conv from rfl, onDevice_edgeQ hf, ← hf.sub,
    show (c.onDevice conv).threshold = conv c.threshold from rfl, hf.le]

/-- The graph with flags copied from the device. -/
theorem copyBack {allowed : (Nat → Nat) → Prop} {g : ConstraintGraph D} (hc : c.Valid) (h : Labeled allowed (c.onDevice conv) g) :
    let c' := { c with nodesAvailability := g.nodesAvailability }
    c.Same c' ∧ c'.Valid ∧ c'.Av = g.Av := by
  have hg : g.disparityGraph = c.disparityGraph.onDevice conv := h.same.1
  refine ⟨⟨rfl, rfl, rfl⟩, ⟨hc.lowest, hc.same, ?_⟩, ?_⟩
  · have := h.valid.size
    rw [hg] at this
    exact this
  · funext x y d
    unfold ConstraintGraph.Av ConstraintGraph.w ConstraintGraph.h ConstraintGraph.levels
    rw [hg]
    rfl

end
end Gpu
end SP
