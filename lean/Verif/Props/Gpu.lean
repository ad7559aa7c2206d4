import Verif.Lemmas.GpuGreedy
import Verif.Lemmas.ParMap
import Verif.Props.Parallel
import Verif.Props.Threshold
import Verif.Spec.FewDigits
/-!
# Properties C56–C59 and C74–C80: the versions for OpenCL and CUDA
-/
set_option linter.unusedSectionVars false

namespace SP
open FloatOps ConstraintGraph Gpu
variable {F D : Type} [FloatOps F] [FloatOps D] {kernel : Kernel D} {allowed : (Nat → Nat) → Prop} {group : Nat → Nat}
  {launch : Launcher D} {d d' : Device D}

/-! ## C56: pixels of work items -/

/-- **C56**. Both for OpenCL and for CUDA: each work item has a pixel of the image, and each pixel belongs to exactly one work item. -/
theorem C56_pixels (hc : d.graph.Valid) :
    (∀ i, i < d.items → ∃ x y, x < d.graph.w ∧ y < d.graph.h ∧ itemPixel d.graph (UInt64.ofNat i) = mkPixel x y) ∧
    (∀ x y, x < d.graph.w → y < d.graph.h → ∃! i, i < d.items ∧ itemPixel d.graph (UInt64.ofNat i) = mkPixel x y) ∧
    (∀ i, i < d.items → ∃ x y, x < d.graph.w ∧ y < d.graph.h ∧ threadPixel d.graph (UInt64.ofNat i) = mkPixel x y) ∧
    (∀ x y, x < d.graph.w → y < d.graph.h → ∃! i, i < d.items ∧ threadPixel d.graph (UInt64.ofNat i) = mkPixel x y) := by
  have hit := d.items_eq hc
  have hw : 0 < d.graph.w := hc.graph.width_pos
  have hh : 0 < d.graph.h := hc.graph.height_pos
  have hb := hc.bounds
  have inj : ∀ {x y x' y'}, x < d.graph.w → y < d.graph.h → x' < d.graph.w → y' < d.graph.h →
      mkPixel x y = mkPixel x' y' → x = x' ∧ y = y' := by
    intro x y x' y' h1 h2 h3 h4 he
    have b1 : d.graph.w ≤ d.graph.w * d.graph.h := Nat.le_mul_of_pos_right _ hh
    have b2 : d.graph.h ≤ d.graph.w * d.graph.h := Nat.le_mul_of_pos_left _ hw
    have b3 := hb.wh
    unfold mkPixel at he
    rw [Pixel.mk.injEq] at he
    have e1 := congrArg UInt64.toNat he.1
    have e2 := congrArg UInt64.toNat he.2
    rw [toNat_ofNat_lt (by omega), toNat_ofNat_lt (by omega)] at e1 e2
    exact ⟨e1, e2⟩
  rw [hit]
  refine ⟨fun i hi => ?_, fun x y hx hy => ?_, fun i hi => ?_, fun x y hx hy => ?_⟩
  · exact ⟨_, _, Nat.mod_lt _ hw, Nat.div_lt_of_lt_mul hi, itemPixel_mk hc hi⟩
  · have hlt : y * d.graph.w + x < d.graph.w * d.graph.h := by
      have : (y + 1) * d.graph.w ≤ d.graph.h * d.graph.w := Nat.mul_le_mul_right _ hy
      rw [Nat.add_mul, Nat.one_mul, Nat.mul_comm d.graph.h] at this
      omega
    have e1 : (y * d.graph.w + x) % d.graph.w = x := by
      rw [Nat.mul_comm, Nat.mul_add_mod, Nat.mod_eq_of_lt hx]
    have e2 : (y * d.graph.w + x) / d.graph.w = y := by
      rw [Nat.mul_comm, Nat.mul_add_div hw, Nat.div_eq_of_lt hx, Nat.add_zero]
    refine ⟨y * d.graph.w + x, ⟨hlt, ?_⟩, ?_⟩
    · rw [itemPixel_mk hc hlt, e1, e2]
    · rintro j ⟨hj, he⟩
      rw [itemPixel_mk hc hj] at he
      obtain ⟨h1, h2⟩ := inj (Nat.mod_lt _ hw) (Nat.div_lt_of_lt_mul hj) hx hy he
      rw [← h1, ← h2, Nat.mul_comm]
      exact (Nat.div_add_mod j d.graph.w).symm
  · exact ⟨_, _, Nat.div_lt_of_lt_mul (by rw [Nat.mul_comm]; exact hi), Nat.mod_lt _ hh, threadPixel_mk hc hi⟩
  · have hlt : x * d.graph.h + y < d.graph.w * d.graph.h := by
      have : (x + 1) * d.graph.h ≤ d.graph.w * d.graph.h := Nat.mul_le_mul_right _ hx
      rw [Nat.add_mul, Nat.one_mul] at this
      omega
    have e1 : (x * d.graph.h + y) % d.graph.h = y := by
      rw [Nat.mul_comm, Nat.mul_add_mod, Nat.mod_eq_of_lt hy]
    have e2 : (x * d.graph.h + y) / d.graph.h = x := by
      rw [Nat.mul_comm, Nat.mul_add_div hh, Nat.div_eq_of_lt hy, Nat.add_zero]
    refine ⟨x * d.graph.h + y, ⟨hlt, ?_⟩, ?_⟩
    · rw [threadPixel_mk hc hlt, e1, e2]
    · rintro j ⟨hj, he⟩
      rw [threadPixel_mk hc hj] at he
      obtain ⟨h1, h2⟩ := inj (Nat.div_lt_of_lt_mul (by rw [Nat.mul_comm]; exact hj)) (Nat.mod_lt _ hh) hx hy he
      rw [← h1, ← h2, Nat.mul_comm]
      exact (Nat.div_add_mod j d.graph.h).symm

/-! ## C57, C74: kernels -/

/-- The kernels that remove nodes. -/
def Gpu.IsKernel (kernel : Kernel D) : Prop := kernel = cspIteration ∨ kernel = cspIterationCuda

theorem Gpu.IsKernel.covers (h : IsKernel kernel) : ∃ cl, Covers kernel cl := by
  rcases h with rfl | rfl
  · exact ⟨true, covers_cl⟩
  · exact ⟨false, covers_cuda⟩

/-- **C57**. Whatever the schedule of work items, a launch only makes nodes unavailable and keeps the largest arc consistent set. If
it changed nothing, then the available nodes are the largest arc consistent subset of themselves. And if all the items belong to
the same work group, then the launch ends exactly with the largest arc consistent subset. -/
theorem C57_fixed_point (hk : IsKernel kernel) (hc : d.graph.Valid) (hp : d.graph.Proper) (h : LaunchTo kernel group d d') :
    d.graph.Same d'.graph ∧ Sub d'.graph.Av d.graph.Av ∧
    Sub (arcClosure d.graph.w d.graph.h d.graph.E d.graph.Av) d'.graph.Av ∧
    (d'.graph.Av = d.graph.Av → d'.graph.Av = arcClosure d.graph.w d.graph.h d.graph.E d.graph.Av) ∧
    ((∀ i j, i < d.items → j < d.items → group i = group j) →
      d'.graph.Av = arcClosure d.graph.w d.graph.h d.graph.E d.graph.Av) := by
  obtain ⟨cl, hk⟩ := hk.covers
  obtain ⟨h1, h2, h3⟩ := h.basic hk hc
  have h4 := h.keeps hk hc hp (S := arcClosure d.graph.w d.graph.h d.graph.E d.graph.Av) arcClosure_sub arcClosure_arc
  refine ⟨h1, h3, h4, fun he => ?_, fun hg => ?_⟩
  · have := (h.stable hk hc hp (by rw [he]; exact Sub.refl _)).1
    exact arcClosure_eq h3 (by rw [he]; exact this) h4
  · have := h.oneGroup hk hc hp hg
    rw [h1.w_eq, h1.h_eq, h1.E_eq] at this
    exact arcClosure_eq h3 this h4

/-- **C74**. Whatever the schedule and the division into work groups, no work item reads or writes outside of the arrays or does
anything else undefined, no execution of a kernel is infinite, and an execution that cannot go on has ended: all items have
returned, or some of them miss each other at a barrier. -/
theorem C74_kernel_safe (hk : IsKernel kernel) (hc : d.graph.Valid) :
    (∀ P, Steps false group d.items (d.launch kernel) P → ∀ i e, i < d.items → P.prog i ≠ .fail e) ∧
    (¬ ∃ f : Nat → Pool Unit, f 0 = d.launch kernel ∧ ∀ n, Step false group d.items (f n) (f (n + 1))) ∧
    (∀ P, Steps false group d.items (d.launch kernel) P → (∀ Q, ¬ Step false group d.items P Q) →
      (∀ i, i < d.items → P.prog i = .ret ()) ∨ Missed group d.items P) := by
  obtain ⟨cl, hk⟩ := hk.covers
  have hsafe : ∀ P, Steps false group d.items (d.launch kernel) P → ∀ i e, i < d.items → P.prog i ≠ .fail e :=
    fun P hs i e hi => launch_rounds hk hc hs i e hi
  refine ⟨hsafe, ?_, fun P hs hno => ?_⟩
  · rintro ⟨f, -, hf⟩
    have : ∀ P : Pool Unit, ∀ n, f n ≠ P := by
      intro P
      induction P using (step_wf (α := Unit) (fresh := false) (group := group) (n := d.items)).induction with
      | _ P ih =>
        intro n hn
        exact ih (f (n + 1)) (hn ▸ hf n) (n + 1) rfl
    exact this _ 0 rfl
  · exact stuck_cases (hs.ok (Pool.start_ok _ _)) hno (hsafe P hs)

/-! ## C58: barriers -/

/-- **C58**, what holds. Full statement: all work items of a work group meet at every barrier. It is false
(`C58_barriers_refuted`): the cell `changed[0]` is reset by the fastest item before others have read it. It holds if each item has a
work group of its own, and for launches that have nothing to remove. -/
theorem C58_barriers_partial (hk : IsKernel kernel) (hc : d.graph.Valid) {P : Pool Unit}
    (hs : Steps false group d.items (d.launch kernel) P)
    (h : (∀ i j, i < d.items → j < d.items → group i = group j → i = j) ∨
      ArcConsistent d.graph.w d.graph.h d.graph.E d.graph.Av) : ¬ Missed group d.items P := by
  obtain ⟨cl, hk⟩ := hk.covers
  rcases h with h | h
  · exact not_missed h
  · exact launch_quiet hk hc h hs

/-! ## C59, C75–C78: the host -/

/-- Functions that find a labeling by a device. -/
inductive Gpu.Finder (conv : F → D) (allowed : (Nat → Nat) → Prop) : (ConstraintGraph F → M (ConstraintGraph F × Bool)) → Prop where
  | cl (launch : Launcher D) (h : launch.Possible cspIteration allowed) : Finder conv allowed (findLabelingCl conv launch)
  | cuda (launch : Launcher D) (h : launch.Possible cspIterationCuda allowed) : Finder conv allowed (findLabelingCuda conv launch)

theorem Gpu.Finder.res {conv : F → D} {find : ConstraintGraph F → M (ConstraintGraph F × Bool)} (h : Finder conv allowed find)
    {c : ConstraintGraph F} (hc : c.Valid) (hp : c.Proper) :
    Res (fun e => ∃ kernel : Kernel D, IsKernel kernel ∧ Misses kernel allowed e) (find c) fun r =>
      Found conv allowed c r.1 ∧ r.2 = true := by
  cases h with
  | cl launch h => exact (findLabelingCl_res h hc hp).weaken fun e he => ⟨_, .inl rfl, he⟩
  | cuda launch h => exact (findLabelingCuda_res h hc hp).weaken fun e he => ⟨_, .inr rfl, he⟩

section
variable {conv : F → D} {find : ConstraintGraph F → M (ConstraintGraph F × Bool)} {c : ConstraintGraph F}

/-- **C59**. Whatever the schedules of work items, their division into work groups and the arithmetic of the device: after the labeling
each pixel has at most one available node, and if the disparity map can be built then it is a labeling consistent with the
constraints as they are computed by the device. -/
theorem C59_map_consistent (hf : Finder conv allowed find) (hc : c.Valid) (hp : c.Proper) {r : ConstraintGraph F × Bool}
    (hr : find c = .ok r) :
    (∀ x y dd dd', r.1.Av x y dd → r.1.Av x y dd' → dd = dd') ∧
    ∀ im, buildDisparityMap r.1 = .ok im →
      Consistent c.w c.h (c.onDevice conv).E c.Av (fun x y => im.at x y) := by
  obtain ⟨h, -⟩ := (hf.res hc hp).of_ok hr
  refine ⟨h.single, fun im him => ?_⟩
  rcases buildDisparityMap_mk h.valid (h.same.proper hp h.sub) with ⟨hal, im', h0, -, -, -, -, h5⟩ | ⟨-, he⟩
  · rw [him] at h0
    cases h0
    rw [h.same.w_eq, h.same.h_eq] at hal h5
    have harc := h.arc hal
    intro x y hx hy
    refine ⟨h.sub _ _ _ (h5 x y hx hy).1, fun k hk => ?_⟩
    obtain ⟨d', hd', he⟩ := harc x y _ (h5 x y hx hy).1 k hk
    simp only
    rwa [h.single _ _ _ _ (h5 _ _ hk.nbx_lt hk.nby_lt).1 hd']
  · rw [him] at he
    cases he

/-- **C75**. The host loops end: there is no infinite sequence of launches after each of which `changed[1]` is not zero; and finding of
a labeling ends, or work items miss each other at a barrier, which cannot happen if each of them has a group of its own. -/
theorem C75_host_ends :
    (∀ f : Nat → Device D, (f 0).graph.Valid → (f 0).graph.Proper →
      ¬ ∀ n, (∃ group, LaunchTo cspIteration group (f n) (f (n + 1))) ∧ (f (n + 1)).changed 1 = true) ∧
    (Finder conv allowed find → c.Valid → c.Proper →
      (Ok (find c) fun r => r.2 = true) ∨
      (find c = .error .ub ∧ ∃ group, allowed group ∧ ¬ ∀ i j, group i = group j → i = j)) := by
  refine ⟨fun f hv hp hall => ?_, fun hf hc hp => ?_⟩
  · have key : ∀ n, (f n).graph.Valid ∧ (f n).graph.Proper ∧ avCard (f n).graph + n ≤ avCard (f 0).graph := by
      intro n
      induction n with
      | zero => exact ⟨hv, hp, Nat.le_refl _⟩
      | succ n ih =>
        obtain ⟨h1, h2, h3⟩ := ih
        obtain ⟨⟨group, ht⟩, hch⟩ := hall n
        have := ht.card_lt covers_cl h1 h2 hch
        obtain ⟨b1, b2, b3⟩ := ht.basic covers_cl h1
        exact ⟨b2, b1.proper h2 b3, by omega⟩
    have := (key (avCard (f 0).graph + 1)).2.2
    omega
  · have := hf.res hc hp
    cases hm : find c with
    | ok r =>
      rw [hm] at this
      exact .inl ⟨r, rfl, this.2⟩
    | error e =>
      rw [hm] at this
      obtain ⟨kernel, -, rfl, d, group, P, -, hg, -, hmiss⟩ := this
      exact .inr ⟨rfl, group, hg, fun hinj => not_missed (fun i j _ _ h => hinj i j h) hmiss⟩

/-- **C77**, what holds. Full statement: when the loop `do … while (changed[1] != 0)` of the host ends, no more nodes can be removed. It is
false (`C77_stops_at_fixed_point_refuted`). It holds if all work items belong to the same group. -/
theorem C77_stops_at_fixed_point_partial (hl : launch.Possible cspIteration allowed) (hone : OneGroup allowed) (hc : d.graph.Valid)
    (hp : d.graph.Proper) {n : Nat} {r : Device D × Nat}
    (h : relaunch launch (d.graph.nodesAvailability.size + 1) d n = .ok r) :
    r.1.graph.Av = arcClosure d.graph.w d.graph.h d.graph.E d.graph.Av :=
  ((relaunch_res covers_cl hl n hc hp (Nat.lt_succ_of_le (avCard_le hc))).of_ok h).1.closure covers_cl hone hp

end

section
variable [LawfulFloat F] [LawfulFloat D] {conv : F → D} {find : ConstraintGraph F → M (ConstraintGraph F × Bool)} {c : ConstraintGraph F}
  {g : DisparityGraph F} {B : Nat} {jobs : UInt64} {solve : Solver F}

theorem Gpu.Finder.good (hf : Finder conv allowed find) (hconv : Faithful conv) (hc : c.Valid) (hp : c.Proper)
    (hnn : ∀ x y d, le zero (c.disparityGraph.nodeQ x y d) = true) :
    Res (fun e => ∃ kernel : Kernel D, IsKernel kernel ∧ Misses kernel allowed e) (find c) fun r => r.2 = true ∧ GoodLabel c r.1 := by
  have h1 := hf.res hc hp
  have h2 : Res (fun e => ∃ kernel : Kernel D, IsKernel kernel ∧ Misses kernel allowed e) (find c) fun r =>
      ChosenUpTo (c.onDevice conv) c.w 0 r.1.Av := by
    cases hf with
    | cl launch h => exact (findLabelingCl_chosen h hc hp (onDevice_nodeQ_nonneg hconv hc hnn)).weaken fun e he => ⟨_, .inl rfl, he⟩
    | cuda launch h => exact (findLabelingCuda_chosen h hc hp (onDevice_nodeQ_nonneg hconv hc hnn)).weaken fun e he => ⟨_, .inr rfl, he⟩
  refine (h1.and h2).mono ?_
  rintro r ⟨⟨h, hb⟩, hch⟩
  refine ⟨hb, h.same, h.valid, h.sub, h.single, fun hal => ?_, ChosenUpTo.ofDevice hconv hc hch⟩
  have := h.arc hal
  rwa [onDevice_E hconv hc] at this

theorem Gpu.Finder.follows (hf : Finder conv allowed find) (hconv : Faithful conv) (hone : OneGroup allowed) (hc : c.Valid) (hp : c.Proper)
    (hnn : ∀ x y d, le zero (c.disparityGraph.nodeQ x y d) = true) {L : Nat → Nat → Nat} (hL : Reachable c L) :
    Res (fun e => ∃ kernel : Kernel D, IsKernel kernel ∧ Misses kernel allowed e) (find c) fun r =>
      r.1.Av = labelingNodes c.w c.h L := by
  have hL' : Reachable (c.onDevice conv) L := Reachable.onDevice hconv hc hL
  cases hf with
  | cl launch h =>
    exact (findLabelingCl_follows h hone hc hp hL' (onDevice_nodeQ_nonneg hconv hc hnn)).weaken fun e he => ⟨_, .inl rfl, he⟩
  | cuda launch h =>
    exact (findLabelingCuda_follows h hone hc hp hL' (onDevice_nodeQ_nonneg hconv hc hnn)).weaken fun e he => ⟨_, .inr rfl, he⟩

/-- The whole computation with a device. -/
theorem Gpu.Finder.map (hf : Finder conv allowed find) (hconv : Faithful conv) (hs : solve.Possible B jobs) (hg : g.Fresh)
    (hj : 0 < jobs.toNat) (hfit : g.h + jobs.toNat ≤ 18446744073709551616) :
    Res (fun e => Hangs solve B jobs e ∨ (∃ what, e = .exc (.logicError what)) ∨ ∃ kernel : Kernel D, IsKernel kernel ∧ Misses kernel allowed e)
      (Par.labeledMap solve (fun _ => find) g) fun im => ∃ t, GreedyMap g t im :=
  (par_labeledMap hs hg hj hfit fun _ c hc hp hgr =>
    (hf.good hconv hc hp (by rw [hgr]; exact nodeQ_nonneg hg)).mono fun r hr _ => hr.2).mono fun _ ⟨t, h, _⟩ => ⟨t, h⟩

/-- **C78**, what holds. Full statement: a map found by a device is feasible at the least threshold, as this is understood by the host. It
is false (`C78_host_constraints_refuted`): the arithmetic of the device is less precise. It holds if conversion to numbers of the device
loses nothing; then the map is the best of the feasible labelings. -/
theorem C78_host_constraints_partial (hf : Finder conv allowed find) (hconv : Faithful conv) (hs : solve.Possible B jobs) (hg : g.Fresh)
    (hj : 0 < jobs.toNat) (hfit : g.h + jobs.toNat ≤ 18446744073709551616) {im : Image}
    (him : Par.labeledMap solve (fun _ => find) g = .ok im) : ∃ t, BestMap g t im :=
  let ⟨t, h⟩ := (hf.map hconv hs hg hj hfit).of_ok him
  ⟨t, h.toBestMap⟩

/-- **C76**, what holds. Full statement: what is found by a device does not depend on the schedule. It is false
(`C76_schedule_independent_refuted`): one schedule gives a map and another one gives none. If conversion of numbers loses nothing then
all the maps found by devices are the same, whatever the kernels, the schedules, and the work groups. -/
theorem C76_schedule_independent_partial {D' : Type} [FloatOps D'] [LawfulFloat D'] {conv' : F → D'} {allowed' : (Nat → Nat) → Prop}
    {find' : ConstraintGraph F → M (ConstraintGraph F × Bool)} {B' : Nat} {jobs' : UInt64} {solve' : Solver F}
    (hf : Finder conv allowed find) (hf' : Finder conv' allowed' find') (hconv : Faithful conv) (hconv' : Faithful conv')
    (hs : solve.Possible B jobs) (hs' : solve'.Possible B' jobs') (hg : g.Fresh)
    (hj : 0 < jobs.toNat) (hj' : 0 < jobs'.toNat) (hfit : g.h + jobs.toNat ≤ 18446744073709551616)
    (hfit' : g.h + jobs'.toNat ≤ 18446744073709551616) {im im' : Image}
    (him : Par.labeledMap solve (fun _ => find) g = .ok im) (him' : Par.labeledMap solve' (fun _ => find') g = .ok im') : im = im' :=
  let ⟨_, h⟩ := (hf.map hconv hs hg hj hfit).of_ok him
  let ⟨_, h'⟩ := (hf'.map hconv' hs' hg hj' hfit').of_ok him'
  (h.toBestMap.unique h'.toBestMap).2

/-- If all the work items belong to the same group then everything that is found is the same, whether or not it is a map, and whatever
the arithmetic. -/
theorem C76_one_group_partial {F D : Type} [FloatOps F] [FloatOps D] {conv : F → D} {c : ConstraintGraph F} {launch launch' : Launcher D}
    (hone : OneGroup allowed) (hc : c.Valid) (hp : c.Proper) {r r' : ConstraintGraph F × Bool} :
    (launch.Possible cspIteration allowed → launch'.Possible cspIteration allowed →
      findLabelingCl conv launch c = .ok r → findLabelingCl conv launch' c = .ok r' → r = r') ∧
    (launch.Possible cspIterationCuda allowed → launch'.Possible cspIterationCuda allowed →
      findLabelingCuda conv launch c = .ok r → findLabelingCuda conv launch' c = .ok r' → r = r') :=
  ⟨fun h h' => findLabelingCl_agree h h' hone hc hp, fun h h' => findLabelingCuda_agree h h' hone hc hp⟩

/-- **C79**, what holds. Full statement: with a device the program ends in the same way as without it. It is false
(`C79_gpu_as_cpu_refuted`): a device may find a map where the processor finds none. If conversion of numbers loses nothing then a map
found by a device is that of the processor, when the processor finds one. -/
theorem C79_gpu_as_cpu_partial {B' : Nat} {jobs' : UInt64} {solve' : Solver F} (hf : Finder conv allowed find) (hconv : Faithful conv)
    (hs : solve.Possible B jobs) (hs' : solve'.Possible B' jobs') (hg : g.Fresh) (hj : 0 < jobs.toNat) (hj' : 0 < jobs'.toNat)
    (hfit : g.h + jobs.toNat ≤ 18446744073709551616) (hfit' : g.h + jobs'.toNat ≤ 18446744073709551616) {im im' : Image}
    (him : Par.disparityMap solve g = .ok im) (him' : Par.labeledMap solve' (fun _ => find) g = .ok im') : im = im' :=
  let ⟨_, h⟩ := C80_best_map hs hg hj hfit him
  let ⟨_, h'⟩ := (hf.map hconv hs' hg hj' hfit').of_ok him'
  (h.unique h'.toBestMap).2

/-- A device with a single work group is never worse than the processor: where the processor finds a map, so does the device, unless its
work items miss each other at a barrier. -/
theorem C79_one_group_partial (hf : Finder conv allowed find) (hconv : Faithful conv) (hone : OneGroup allowed)
    (hs : solve.Possible B jobs) (hg : g.Fresh) (hj : 0 < jobs.toNat) (hfit : g.h + jobs.toNat ≤ 18446744073709551616) {im : Image}
    (him : Par.disparityMap solve g = .ok im) :
    Par.labeledMap solve (fun _ => find) g = .ok im ∨
    (Par.labeledMap solve (fun _ => find) g = .error .ub ∧ ∃ kernel : Kernel D, IsKernel kernel ∧ Misses kernel allowed .ub) := by
  rw [disparityMap_labeled] at him
  unfold Par.labeledMap at him ⊢
  obtain ⟨⟨c, calls⟩, hsol, him⟩ := bind_eq_ok him
  rw [hsol, bind_ok]
  simp only at him ⊢
  obtain ⟨⟨c', b'⟩, hlab, him⟩ := bind_eq_ok him
  simp only at him
  cases b'
  · cases him
  simp only [Bool.not_true, Bool.false_eq_true, if_false] at him
  obtain ⟨t, h1, -⟩ := (par_solvedGraph hs hg hj hfit).of_ok hsol
  simp only at h1
  have hgr := h1.graph_eq hg
  have hnn : ∀ x y d, le zero (c.disparityGraph.nodeQ x y d) = true := by rw [hgr]; exact nodeQ_nonneg hg
  have hgood := (par_labelCpu hs hg hj hfit calls h1.valid h1.proper hgr).of_ok hlab rfl
  simp only at hgood
  obtain ⟨L, hL, hS⟩ := hgood.labeling h1.proper him
  have hfol := hf.follows hconv hone h1.valid h1.proper hnn (hgood.chosen.reachable h1.valid hL fun x y hx hy => by
    rw [hS]; exact ⟨hx, hy, rfl⟩)
  have hres := hf.res h1.valid h1.proper
  cases hfind : find c with
  | error e =>
    rw [hfind] at hres
    obtain ⟨kernel, hk, hm⟩ := hres
    obtain rfl := hm.1
    exact .inr ⟨rfl, kernel, hk, hm⟩
  | ok r =>
    rw [hfind] at hres hfol
    obtain ⟨c2, b2⟩ := r
    obtain ⟨k1, k2⟩ := hres
    simp only at k1 k2
    subst k2
    have hfol : c2.Av = labelingNodes c.w c.h L := hfol
    have : c2 = c' := graph_ext k1.same hgood.same k1.valid hgood.valid (hfol.trans hS.symm)
    subst this
    exact .inl him

/-- **C80** for a device: if conversion of numbers loses nothing then a produced map is the best of the labelings feasible at the least
threshold. -/
theorem C80_best_map_gpu (hf : Finder conv allowed find) (hconv : Faithful conv) (hs : solve.Possible B jobs) (hg : g.Fresh)
    (hj : 0 < jobs.toNat) (hfit : g.h + jobs.toNat ≤ 18446744073709551616) {im : Image}
    (him : Par.labeledMap solve (fun _ => find) g = .ok im) : ∃ t, BestMap g t im :=
  let ⟨t, h⟩ := (hf.map hconv hs hg hj hfit).of_ok him
  ⟨t, h.toBestMap⟩

end
end SP
