import Verif.Lemmas.NearDevice
import Verif.Props.CudaKernel
import Verif.Props.NearOptimal
import Verif.Props.OneRow
/-!
# Maps found by devices with `float` are almost the best

Claim C99. The processor finds the threshold with `double`, and a device looks for a labeling with `float`.
-/
namespace SP
open FloatOps Gpu

section
variable {F D : Type} [FloatOps F] [FloatOps D]

/-- A map found by a device: the threshold is that of the processor, chosen nodes satisfy it as the processor computes penalties, and chosen
edges satisfy it as the device does. -/
structure DeviceMap (conv : F → D) (g : DisparityGraph F) (t : F) (im : Image) : Prop where
  least : ∀ t' L, g.FeasibleAt t' L → le t t' = true
  node : ∀ x y, x < g.w → y < g.h → g.IsNode x y (im.at x y) ∧ ∀ d, g.IsNode x y d → le (sub (g.nodeQ x y (im.at x y)) (g.nodeQ x y d)) t = true
  edge : ∀ x y, x < g.w → y < g.h → ∀ k, HasNb g.w g.h x y k → g.IsEdge x y k (im.at x y) (im.at (nbx x k) (nby y k)) ∧
    le (sub ((g.onDevice conv).edgeQ x y k (im.at x y) (im.at (nbx x k) (nby y k))) zero) (conv t) = true

variable {conv : F → D} {allowed : (Nat → Nat) → Prop} {B : Nat} {jobs : UInt64}

theorem onDevice_edgeMin (hz : conv zero = zero) {c : ConstraintGraph F} (hc : c.Valid) (x y k : Nat) :
    (c.onDevice conv).lowestPenalties.edgeMin x y k = conv (c.lowestPenalties.edgeMin x y k) := by
  unfold LowestPenalties.edgeMin
  rw [show c.lowestPenalties.graph.h = c.disparityGraph.h by rw [hc.same]]
  show (c.lowestPenalties.neighborhoods.map conv).getD (hidx c.disparityGraph.h x y k) zero = _
  by_cases h : hidx c.disparityGraph.h x y k < c.lowestPenalties.neighborhoods.size
  · simp [Array.getD, h]
  · simp [Array.getD, h, hz]

/-- Whatever the arithmetic of the device, it finds such maps. -/
theorem deviceMap_of_finder [LawfulFloat F] (hz : conv zero = zero) {find : ConstraintGraph F → M (ConstraintGraph F × Bool)} (hf : Finder conv allowed find)
    {solve : Solver F} (hs : solve.Possible B jobs) {g : DisparityGraph F} (hg : g.Fresh) (hj : 0 < jobs.toNat)
    (hfit : g.h + jobs.toNat ≤ 18446744073709551616) {im : Image} (him : Par.labeledMap solve (fun _ => find) g = .ok im) :
    SizedMap g im ∧ ∃ t, DeviceMap conv g t im := by
  refine ⟨(par_labeledMap_sized hs hg hj hfit fun n c hc hp _ => (hf.res hc hp).mono fun r hr => ⟨hr.1.same, hr.1.valid, hr.1.sub⟩).of_ok him, ?_⟩
  unfold Par.labeledMap at him
  obtain ⟨⟨c1, calls⟩, h1, him⟩ := bind_eq_ok him
  obtain ⟨⟨c2, b⟩, h2, him⟩ := bind_eq_ok him
  obtain ⟨t, hsol, -⟩ := (par_solvedGraph hs hg hj hfit).of_ok h1
  simp only at h2 hsol
  obtain ⟨p, c0, htab, hc0, k1, k3⟩ := hsol.start
  obtain ⟨c0', hc0', -, -, -, a4, a5, a6, a7⟩ := start_mk hg htab t
  rw [hc0] at hc0'
  cases hc0'
  have him' : buildDisparityMap c2 = .ok im := by
    cases b
    · cases him
    · exact him
  have hcons := (C59_map_consistent hf hsol.valid hsol.proper h2).2 im him'
  rw [hsol.w_eq, hsol.h_eq] at hcons
  have hgr : c1.disparityGraph = g := hsol.graph_eq hg
  have hth : c1.threshold = t := by rw [k1.2.2, a5]
  refine ⟨t, hsol.least, fun x y hx hy => ?_, fun x y hx hy k hk => ?_⟩
  · have := (a7 _ _ _).1 (k3 _ _ _ (hcons x y hx hy).1)
    exact ⟨this.1, (node_iff hg this.1).1 this.2⟩
  · obtain ⟨e1, e2⟩ := (hcons x y hx hy).2 k hk
    rw [onDevice_edgeMin hz hsol.valid, k1.2.1, a6, htab.edge x y k hk, hz, show (c1.onDevice conv).threshold = conv c1.threshold from rfl, hth,
      show (c1.onDevice conv).disparityGraph = c1.disparityGraph.onDevice conv from rfl, hgr] at e2
    rw [show (c1.onDevice conv).disparityGraph = c1.disparityGraph.onDevice conv from rfl, hgr] at e1
    exact ⟨e1, e2⟩

/-- The program finds the best map with the processor and such a map with a device. -/
theorem World.map_device [LawfulFloat F] {world : World F} (hz : conv zero = zero) (hruns : world.Runs B jobs) (hdev : world.Devices conv allowed)
    {p : Option Text} {out : List Message} {f : Labeler F} (hc : chooseParallelism world p = some (out, f))
    {g : DisparityGraph F} (hg : g.Fresh) (hj : 0 < jobs.toNat) (hfit : g.h + jobs.toNat ≤ 18446744073709551616)
    {im : Image} (him : Par.labeledMap world.solve f g = .ok im) : SizedMap g im ∧ ((∃ t, BestMap g t im) ∨ ∃ t, DeviceMap conv g t im) := by
  rcases chooseParallelism_finder hdev hc with rfl | ⟨find, find', hf, hlim, rfl⟩
  · rw [← disparityMap_labeled] at him
    have : ∃ t, BestMap g t im := by
      rcases hruns with hs | hs
      · exact C80_best_map hs hg hj hfit him
      · rw [hs, C71_whole] at him
        exact C80_sequential hg hj hfit him
    obtain ⟨t, ht⟩ := this
    exact ⟨ht.sized, .inl ⟨t, ht⟩⟩
  · replace him := labeledMap_limited hlim him
    have : SizedMap g im ∧ ∃ t, DeviceMap conv g t im := by
      rcases hruns with hs | hs
      · exact deviceMap_of_finder hz hf hs hg hj hfit him
      · obtain ⟨solve, h1, h2⟩ := Solver.Possible.seq (F := F) 64 jobs
        rw [hs] at him
        rcases refines_labeledMap (label := fun _ => find) h2 g with ⟨e, -, h⟩ | h
        · rw [him] at h
          cases h
        · exact deviceMap_of_finder hz hf h1 hg hj hfit (h.trans him)
    exact ⟨this.1, .inr this.2⟩

end

/-- Penalties of edges as a device computes them. -/
theorem onDevice_fresh_edgeQ {F D : Type} [FloatOps F] [FloatOps D] {conv : F → D} (hz : conv zero = zero) {left right : Image} {levels : UInt64} {c s : F}
    (x y k d d' : ℕ) : ((freshGraph left right levels c s).onDevice conv).edgeQ x y k d d' =
      sub (sub (mul (conv s) (sqr (sub (ofNat d) (ofNat d')))) zero) zero := by
  have hphi : ∀ x y d k, ((freshGraph left right levels c s).onDevice conv).phi x y d k = zero := by
    intro x y d k
    unfold DisparityGraph.phi freshGraph DisparityGraph.onDevice
    simp only [Array.map_replicate, Array.getD_eq_getD_getElem?, Array.getElem?_replicate, hz]
    split <;> rfl
  unfold DisparityGraph.edgeQ
  simp only [hphi]
  rfl

theorem toSingle_zero : toSingle zero = zero := toSingle_nat (n := 0) (by decide +kernel)

/-- The map of a device with `float` is almost the best. -/
theorem DeviceMap.near {left right : Image} {levels : UInt64} {c s U : ℕ} (hc : c ≤ 2 ^ 64) (hs : s ≤ 2 ^ 64) (hU : U ≤ 2 ^ 64)
    (hlev : levels.toNat ≤ 2 ^ 31) (h1 : 1 ≤ levels.toNat) (hl : ∀ x y, left.at x y ≤ U) (hr : ∀ x y, right.at x y ≤ U)
    (hw : 0 < right.width.toNat) (hh : 0 < right.height.toNat) {t : Format.binary64.Num} {im : Image}
    (h : DeviceMap toSingle (freshGraph left right levels (ofNat c : Format.binary64.Num) (ofNat s)) t im) {t' : ℚ} {L : Nat → Nat → Nat}
    (ht : (freshGraph left right levels (ofNat c : ℚ) (ofNat s)).FeasibleAt t' L) :
    (freshGraph left right levels (ofNat c : ℚ) (ofNat s)).FeasibleAt (t' + 1 / 2 ^ 19 * largestPenalty U levels c s) (fun x y => im.at x y) := by
  have hk : 192 < Format.binary64.top := by decide
  have hd : 5 ≤ Format.binary64.digits := by decide
  have hlev' : levels.toNat ≤ 2 ^ 64 := levels.toNat_lt.le
  obtain ⟨t₁, h2, h3⟩ := feasible_rounded (g := freshGraph left right levels (ofNat c : Format.binary64.Num) (ofNat s)) Iff.rfl hw hh
    (gap_error (k := 192) (a := 64) (b := 64) (b' := 64) hk hd (by norm_num) (by norm_num) hc hs hU hlev' hl hr).1 ht
  have h4 : t.1 ≤ t₁.1 := of_decide_eq_true (h.least _ _ h3)
  have hnode := node_error (left := left) (right := right) (levels := levels) (s := s) (k := 192) (a := 64) (b := 64) hk hd (by norm_num) hc hU hl hr
  have hM0 : 0 ≤ largestPenalty U levels c s := le_max_of_le_left (by positivity)
  have hMs : (s : ℚ) * (levels.toNat : ℚ) ^ 2 ≤ largestPenalty U levels c s := le_max_right _ _
  have ht0 : 0 ≤ t.1 := by
    obtain ⟨q1, q2⟩ := h.node 0 0 hw hh
    have := q2 _ q1
    rw [LawfulFloat.sub_self] at this
    have hz : (zero : Format.binary64.Num).1 = 0 := by decide +kernel
    rw [← hz]
    exact of_decide_eq_true this
  have hs0 : (0 : ℚ) ≤ s := Nat.cast_nonneg s
  generalize largestPenalty U levels c s = M at *
  have hu : Format.binary64.unit = 1 / 2 ^ 53 := rfl
  have hu' : Format.binary32.unit = 1 / 2 ^ 24 := rfl
  rw [hu] at h2 hnode
  rw [DisparityGraph.feasible_iff]
  refine ⟨fun x y hx hy => ⟨(h.node x y hx hy).1, fun k hk => (h.edge x y hx hy k hk).1⟩, ?_⟩
  rintro e f hef
  refine decide_eq_true ?_
  show e - f ≤ t' + _
  rcases hef with ⟨x, y, d, hx, hy, hL, hd⟩ | ⟨x, y, k, d, d', hx, hy, hk, hL, hd⟩
  · obtain ⟨D, q1, q2⟩ := hnode x y (im.at x y) d
    have q3 : (sub _ _ : Format.binary64.Num).1 ≤ t.1 := of_decide_eq_true ((h.node x y hx hy).2 d hd)
    rw [q1] at q3
    have := (abs_le.1 q2).1
    linarith
  · obtain ⟨-, q2⟩ := h.edge x y hx hy k hk
    have hlo : im.at x y < levels.toNat := hL.2.1.2.2.1
    have hlo' : im.at (nbx x k) (nby y k) < levels.toNat := hL.2.2.1.2.2.1
    rw [fresh_edgeQ, fresh_edgeQ]
    have hf0 : (0 : ℚ) ≤ mul (ofNat s) (sqr (sub (ofNat d) (ofNat d'))) := mul_nonneg hs0 (mul_self_nonneg _)
    have key : (s : ℚ) * ((im.at x y : ℚ) - im.at (nbx x k) (nby y k)) ^ 2 ≤ t.1 + 20 * Format.binary32.unit * M := by
      rcases Nat.eq_zero_or_pos s with h0 | h0
      · rw [h0, hu', Nat.cast_zero, zero_mul]
        linarith
      · refine edge_single hs hlev hlo.le hlo'.le ht0 ?_ hMs ?_
        · have e1 : (1 : ℚ) ≤ s := by exact_mod_cast h0
          have e2 : (1 : ℚ) ≤ levels.toNat := by exact_mod_cast h1
          nlinarith [one_le_pow₀ e2 (n := 2)]
        · rw [onDevice_fresh_edgeQ toSingle_zero] at q2
          exact q2
    rw [hu'] at key
    have e3 : (mul (ofNat s) (sqr (sub (ofNat (im.at x y)) (ofNat (im.at (nbx x k) (nby y k))))) : ℚ) =
        s * ((im.at x y : ℚ) - im.at (nbx x k) (nby y k)) ^ 2 := by
      rw [sq]
      rfl
    rw [e3]
    linarith

section
variable {allowed : (Nat → Nat) → Prop} {B : Nat} {jobs : UInt64}

/-- What is needed of a device for it: the edges it accepts would be accepted with `float` of IEEE 754. -/
theorem World.near_device {D : Type} [FloatOps D] {conv : Double → D} (hz : conv (toDouble zero) = zero)
    (hD : ∀ {left right : Image} {levels : UInt64} {c s : ℕ} {t : Format.binary64.Num} {im : Image}, 0 < right.width.toNat → 0 < right.height.toNat →
      s ≤ 2 ^ 64 → levels.toNat ≤ 2 ^ 31 →
      DeviceMap (fun a => conv (toDouble a)) (freshGraph left right levels (ofNat c : Format.binary64.Num) (ofNat s)) t im →
      DeviceMap toSingle (freshGraph left right levels (ofNat c : Format.binary64.Num) (ofNat s)) t im)
    {world : World Double} (hw : world.Reasonable jobs) (hruns : world.Runs B jobs) (hdev : world.Devices conv allowed) (cl : CommandLine)
    (out : Outcome) (h : program world cl = .ok out) (path text : Text) (hwr : out.written = some (path, text)) :
    world.NearResult (1 / 2 ^ 19) cl out path text := by
  obtain ⟨world', h1, h2, -, h3⟩ := World.pull carrier_double hruns hdev
  obtain ⟨e1, e2, o, l, r, left, right, levels, c, s, im, q1, q2, q3, q4, q5, q6, q7, q8, q9, q10, q11, q12, q13, q14, -, -, -, -, q15⟩ :=
    World.result_of (R := fun g im => (∃ t, BestMap g t im) ∨ ∃ t, DeviceMap (fun a => conv (toDouble a)) g t im) carrier_double h1 hw
      (fun p ms f hc g hg hfit im him => World.map_device hz h2 h3 hc hg hw.jobs_pos hfit him)
      (fun o l r _ _ _ => world.inRange_192 o l r) h hwr
  obtain ⟨a1, a2, a3, a4, a5, -, a7, -⟩ := id q10
  refine ⟨e1, e2, o, l, r, left, right, levels, c, s, im, q1, q2, q3, q4, q5, q6, q7, q8, q9, accepted_exact q10, q11, q12,
    q14.width, q14.height, q14.levels, fun t' L ht => ?_⟩
  have hn : ∀ n : UInt64, n.toNat ≤ 2 ^ 64 := fun n => n.toNat_lt.le
  have hr : ∀ x y, right.at x y ≤ left.maxValue.toNat := fun x y => (a2.at_le x y).trans (by rw [a7])
  rcases q15 with ⟨t, q15⟩ | ⟨t, q15⟩
  · have := q15.near (k := 192) (a := 64) (b := 64) (b' := 64) (U := left.maxValue.toNat) (by decide) (by decide) (by norm_num) (by norm_num) (hn c) (hn s)
      (hn _) (hn _) a1.at_le hr a2.1 a2.2.1 ht
    rw [show 64 * Format.binary64.unit = 1 / 2 ^ 47 by simp only [Format.unit, Format.binary64]; norm_num] at this
    rw [DisparityGraph.feasible_iff] at this ⊢
    refine ⟨this.1, fun e f hef => decide_eq_true ?_⟩
    have h4 : e - f ≤ t' + _ := of_decide_eq_true (this.2 e f hef)
    have h5 : 0 ≤ largestPenalty left.maxValue.toNat levels c.toNat s.toNat := le_max_of_le_left (by positivity)
    show e - f ≤ t' + _
    linarith
  · have hlev : levels.toNat ≤ 2 ^ 31 := by
      have hsz : im.data.size = right.width.toNat * right.height.toNat := q14.size
      have := Nat.le_mul_of_pos_right right.width.toNat a2.2.1
      have := hw.memory
      rw [a5] at a4
      omega
    exact (hD a2.1 a2.2.1 (hn s) hlev q15).near (hn c) (hn s) (hn _) hlev (by omega) a1.at_le hr a2.1 a2.2.1 ht

/-- **C99**. Whatever the images and the weights and whatever the schedule of the device, a map found by a device with `float` is almost the best in
exact arithmetic: it is worse than any other labeling at most by `2^-19` of the largest penalty. -/
theorem C99_near_optimal_float {world : World Double} (hw : world.Reasonable jobs) (hruns : world.Runs B jobs)
    (hdev : world.Devices (Ieee.convert : Double → Single) allowed) (cl : CommandLine) (out : Outcome) (h : program world cl = .ok out)
    (path text : Text) (hwr : out.written = some (path, text)) : world.NearResult (1 / 2 ^ 19) cl out path text :=
  World.near_device toSingle_zero (fun _ _ _ _ h => h) hw hruns hdev cl out h path text hwr

/-- The same if compilers contract expressions for the processor and for the device. -/
theorem C99_near_optimal_contracted {fused : Double → Double → Double → Bool} {fused' : Single → Single → Single → Bool}
    {world : World (ContractedDouble fused)} (hw : world.Reasonable jobs) (hruns : world.Runs B jobs)
    (hdev : world.Devices (Contracted.convert : ContractedDouble fused → ContractedSingle fused') allowed) (cl : CommandLine) (out : Outcome)
    (h : program world cl = .ok out) (path text : Text) (hwr : out.written = some (path, text)) : world.NearResult (1 / 2 ^ 19) cl out path text := by
  obtain ⟨world', h1, -, h2, e1, e2, e3, e4, h3⟩ := C97_same_program hruns hdev
  have him : readImage world' = readImage world := by
    funext path
    unfold readImage
    rw [e1, e3]
  have := C99_near_optimal_float (world := world') ⟨e3 ▸ hw.memory, hw.jobs_pos, hw.jobs_small, e4 ▸ hw.room⟩ h1 h2 cl out (h3 cl ▸ h) path text hwr
  unfold World.NearResult at this ⊢
  rw [him, e3] at this
  exact this

/-- The same for kernels of CUDA that compute with 32 bits. -/
theorem C99_near_optimal_32 {world : World Double} (hw : world.Reasonable jobs) (hruns : world.Runs B jobs)
    (hdev : world.Devices32 (Ieee.convert : Double → Single) allowed) (cl : CommandLine) (hfit : world.Fits32 cl) (out : Outcome)
    (h : program world cl = .ok out) (path text : Text) (hwr : out.written = some (path, text)) : world.NearResult (1 / 2 ^ 19) cl out path text := by
  obtain ⟨cuda', -, h1, h2⟩ := C94_same_program hw hruns hdev cl hfit
  exact C99_near_optimal_float (world := { world with cuda := cuda' }) ⟨hw.memory, hw.jobs_pos, hw.jobs_small, hw.room⟩ hruns h1 cl out
    (h2.trans h) path text hwr

end

/-! ## Images of one row -/

section
variable {F D : Type} [FloatOps F] [LawfulFloat F] [FloatOps D] [LawfulFloat D] {conv : F → D} {allowed : (Nat → Nat) → Prop} {B : Nat} {jobs : UInt64}

omit [FloatOps F] [LawfulFloat F] [FloatOps D] [LawfulFloat D] in
/-- A file is written only if nothing has happened. -/
theorem handle_written {ms : List Message} {m : M (Option (Text × Text))} {out : Outcome} (h : handle ms m = .ok out) {w : Text × Text}
    (hw : out.written = some w) : m = .ok (some w) := by
  rcases handle_cases ms m with ⟨w', h4, h3⟩ | ⟨e, msg, -, h4, h3⟩ | ⟨e, -, h3⟩ | ⟨h4 | h4, h3⟩ | ⟨-, h3⟩
  · rw [h3] at h; cases h; rw [h4]; exact congrArg _ hw
  · rw [h3] at h; cases h; cases hw
  · rw [h3] at h; cases h; cases hw
  · rw [h3, h4] at h; cases h
  · rw [h3, h4] at h; cases h
  · rw [h3] at h; cases h; cases hw

/-- What the program does with `--parallel`, if it writes a file without it: an option that is not known or a device that fails are reported. -/
theorem World.found_row {world : World F} (hw : world.Reasonable jobs) (hs : world.solve.Possible B jobs) (hdev : world.Devices conv allowed)
    (hconv : Faithful conv) (hone : OneGroup allowed) {o : Options} {out : Outcome}
    (h : program world (.parsed { o with parallel := none }) = .ok out) {path text : Text} (hwr : out.written = some (path, text))
    (hrow : ∀ r right, o.rightImage = some r → readImage world r = .ok right → right.height = 1) :
    (program world (.parsed o) = .error .ub ∧ ∃ kernel : Kernel D, IsKernel kernel ∧ Misses kernel allowed .ub) ∨
    ∃ out', program world (.parsed o) = .ok out' ∧
      (out'.written = out.written ∨ (out'.written = none ∧ (out'.exit = 1 ∨ .cudaFailure ∈ out'.out))) := by
  rcases program_cases world (.parsed { o with parallel := none }) with ⟨e, h1, -⟩ | ⟨h1, -⟩ | ⟨h1, -⟩ | ⟨o', l, r, p, ms, f, hcl, hl, hr, hp, hc, h1⟩
  · rw [h] at h1; cases h1; cases hwr
  · rw [h] at h1; cases h1; cases hwr
  · rw [h] at h1; cases h1; cases hwr
  cases hcl
  simp only at hl hr hp
  cases hc
  rw [h] at h1
  have hprog : program world (.parsed o) = match chooseParallelism world o.parallel with
      | none => .ok { exit := 1, err := [.unexpected "`parallel` cannot be"] }
      | some (out, label) => handle out (compute world o label l r p) := by
    unfold program
    simp only [hl, hr, hp]
    rfl
  rw [hprog]
  cases hc : chooseParallelism world o.parallel with
  | none => exact .inr ⟨_, rfl, .inr ⟨rfl, .inl rfl⟩⟩
  | some q =>
    obtain ⟨ms, f⟩ := q
    simp only
    have h2 := handle_written h1.symm hwr
    unfold compute at h2 ⊢
    obtain ⟨g, hg, h2⟩ := bind_eq_ok h2
    obtain ⟨im, him, h3⟩ := bind_eq_ok h2
    obtain ⟨tx, htx, h4⟩ := bind_eq_ok h3
    rw [show readGraph world o l r = .ok g from hg, bind_ok]
    obtain ⟨left, right, levels, cleanness, smoothness, -, k2, -, -, -, ha, hls, hrs, hsm, rfl⟩ := readGraph_ok hw hg
    obtain ⟨f1, f2, -⟩ := fresh_limits hw ha hls hrs hsm
    have hh : (freshGraph left right levels cleanness smoothness).h = 1 := by
      show right.height.toNat = 1
      rw [hrow r right hr k2]
      rfl
    have hfound : ∀ f', Par.labeledMap world.solve f' (freshGraph left right levels cleanness smoothness) = .ok im →
        ∃ out', handle ms (Par.labeledMap world.solve f' (freshGraph left right levels cleanness smoothness) >>= fun result => do
          let text ← writePgm (some result)
          return if world.writable p then some (p, world.stored p text) else none) = .ok out' ∧ out'.written = out.written := by
      intro f' hf'
      rw [hf', bind_ok, htx, bind_ok]
      refine ⟨_, rfl, ?_⟩
      rw [hwr]
      exact Except.ok.inj h4
    rcases chooseParallelism_finder hdev hc with rfl | ⟨find, find', hf, hlim, rfl⟩
    · obtain ⟨out', e1, e2⟩ := hfound _ him
      exact .inr ⟨out', e1, .inl e2⟩
    · rw [← disparityMap_labeled] at him
      have hdevice := C96_device_as_processor hf hconv hone hs f1 hh hw.jobs_pos f2 him
      have hlimited : (∃ e, DeviceFails e ∧ Par.labeledMap world.solve (fun _ => find') (freshGraph left right levels cleanness smoothness) = .error e) ∨
          Par.labeledMap world.solve (fun _ => find') (freshGraph left right levels cleanness smoothness) =
          Par.labeledMap world.solve (fun _ => find) (freshGraph left right levels cleanness smoothness) := by
        unfold Par.labeledMap
        cases Par.solvedGraph world.solve (freshGraph left right levels cleanness smoothness) with
        | error e => exact .inr rfl
        | ok q =>
          obtain ⟨c, n⟩ := q
          rcases hlim c with ⟨e, he, h⟩ | h
          · refine .inl ⟨e, he, ?_⟩
            rw [bind_ok]
            simp only [h]
            rfl
          · refine .inr ?_
            rw [bind_ok, bind_ok]
            simp only [h]
      rcases hlimited with ⟨e, he, h5⟩ | h5
      · refine .inr ?_
        rw [h5]
        rcases he with rfl | ⟨what, rfl⟩
        · exact ⟨_, rfl, .inr ⟨rfl, .inr (by simp)⟩⟩
        · exact ⟨_, rfl, .inr ⟨rfl, .inl rfl⟩⟩
      · rcases hdevice with ⟨h6, h7⟩ | h6
        · refine .inl ⟨?_, h7⟩
          rw [h5, h6]
          rfl
        · obtain ⟨out', e1, e2⟩ := hfound _ (h5.trans h6)
          exact .inr ⟨out', e1, .inl e2⟩

end

/-- **C100**, partial. Full statement: what the processor writes for images of one row is written with a device as well, if all its work items
belong to the same work group, unless they miss each other at a barrier or the device fails. Here weights multiplied by squares of differences of
intensities or levels are at most `2^24`; for larger ones this is false (`C100_found_refuted`). -/
theorem C100_found_partial {allowed : (Nat → Nat) → Prop} {B : Nat} {jobs : UInt64} {world : World Double} (hw : world.Reasonable jobs)
    (hs : world.solve.Possible B jobs) (hdev : world.Devices (Ieee.convert : Double → Single) allowed) (hone : OneGroup allowed)
    (hfiles : ∀ path text, world.file path = some text → HarmlessFile text) {o : Options} {out : Outcome} (h : program world (.parsed { o with parallel := none }) = .ok out) {path text : Text} (hwr : out.written = some (path, text))
    (hrow : ∀ r right, o.rightImage = some r → readImage world r = .ok right → right.height = 1)
    (hr : ∀ l r, o.leftImage = some l → o.rightImage = some r → world.InRange 24 o l r) :
    (program world (.parsed o) = .error .ub ∧ ∃ kernel : Kernel Single, IsKernel kernel ∧ Misses kernel allowed .ub) ∨
    ∃ out', program world (.parsed o) = .ok out' ∧
      (out'.written = out.written ∨ (out'.written = none ∧ (out'.exit = 1 ∨ .cudaFailure ∈ out'.out))) := by
  obtain ⟨world', h1, -, h2, h3⟩ := World.pullBoth carrier_mixed carrier_single.toHom (Ieee.convert_of _)
    (fun c hg hl => carried_onDevice carrier_single hg hl) (.inl hs) hdev
  have him : ∀ path, readImage world path = readImage world' path := readImage_transfer h1
  have hr' : ∀ l r, o.leftImage = some l → o.rightImage = some r → world'.InRange 24 o l r := by
    intro l r h2 h3 left right levels c s
    rw [← him, ← him]
    exact hr l r h2 h3 left right levels c s
  have e1 : program world (.parsed o) = program world' (.parsed o) :=
    program_transfer carrier_mixed h1 _ fun o' l r ho hl hr => by cases ho; exact hr' l r hl hr
  have e2 : program world (.parsed { o with parallel := none }) = program world' (.parsed { o with parallel := none }) :=
    program_transfer carrier_mixed h1 _ fun o' l r ho hl hr => by cases ho; exact hr' l r hl hr
  have hw' : world'.Reasonable jobs := ⟨h1.memory ▸ hw.memory, hw.jobs_pos, hw.jobs_small, h1.room ▸ hw.room⟩
  rcases World.found_row hw' (h2 hs) h3 .id hone (e2 ▸ h) hwr (fun r right q1 q2 => hrow r right q1 ((him r).trans q2)) with ⟨h4, -⟩ | h4
  · rw [← e1] at h4
    rcases C91_program_safe_partial hw hs hdev hfiles (.parsed o) with ⟨out', h5, -⟩ | ⟨h5, -⟩ | h5
    · rw [h4] at h5; cases h5
    · rw [h4] at h5; cases h5
    · exact .inl h5
  · rw [e1]
    exact .inr h4

/-! ## Not the map of the processor -/

set_option maxRecDepth 1000000

/-- C98, C99: the device with `float` that does not write the best map writes one that is almost the best. -/
example : ∃ (world : World Double) (out : Outcome) (path text : Text), world.Reasonable 1 ∧ world.Runs 64 1 ∧
    world.Devices (Ieee.convert : Double → Single) (· = id) ∧
    program world (.parsed (weighted (some "1048576") (some "16777217") (some "CL"))) = .ok out ∧ out.written = some (path, text) ∧
    world.NearResult (1 / 2 ^ 19) (.parsed (weighted (some "1048576") (some "16777217") (some "CL"))) out path text := by
  obtain ⟨h1, h2, h3⟩ := floatWorld_ok float_launch
  have h4 := float_computed rfl float_cl
  exact ⟨_, _, _, _, h1, h2, h3, h4, rfl, C99_near_optimal_float h1 h2 h3 _ _ h4 _ _ rfl⟩

/-- Images of one row. -/
def farWorld (launch : Launcher Single) : World Double :=
  { floatWorld launch with
    file := fun path =>
      if path = bytes "l" then some (bytes "P2 6 1 15 0 15 15 15 8 7")
      else if path = bytes "r" then some (bytes "P2 6 1 15 0 7 7 7 7 7") else none }

def farOptions (parallel : Option String) : Options :=
  { weighted (some "4194304") (some "16777227") parallel with disparityLevels := some (bytes "5") }

/-- All the work items belong to the same work group. -/
def farTurns : Nat → List Turn := fun _ => together 6 12

theorem far_cpu (launch : Launcher Single) : program (farWorld launch) (.parsed (farOptions none)) =
    .ok { exit := 0, written := some (bytes "o", bytes "P2\n6 1\n5\n0 3 3 2 1 0\n") } := by
  show program (farWorld fun _ _ => .error .ub) (.parsed (farOptions none)) = _
  decide +kernel

theorem far_cl : program (farWorld (computed cspIteration (fun _ => 0) farTurns)) (.parsed (farOptions (some "CL"))) =
    .ok { exit := 0, out := [.openCL], err := [.logicError "Cannot find label for the pixel"] } := by decide +kernel

theorem far_launch : (Launcher.ofTurns (D := Single) cspIteration (fun _ => 0) farTurns).Possible cspIteration (· = fun _ => 0) :=
  Launcher.ofTurns_possible (allowed := (· = fun _ => 0)) (group := fun _ => 0) rfl _

theorem far_computed {o : Options} (hp : o.parallel = some (bytes "CL")) {out : Outcome}
    (h : program (farWorld (computed cspIteration (fun _ => 0) farTurns)) (.parsed o) = .ok out) :
    program (farWorld (.ofTurns cspIteration (fun _ => 0) farTurns)) (.parsed o) = .ok out := by
  rcases refines_program (world := farWorld (.ofTurns cspIteration (fun _ => 0) farTurns))
    (world' := farWorld (computed cspIteration (fun _ => 0) farTurns)) computed_refines rfl rfl o hp with ⟨e, -, he⟩ | he
  · rw [he] at h; cases h
  · rw [he]; exact h

/-- **C100** is false. Full statement: what the processor finds for images of one row is found by a device with `float` and a single work group as
well, unless its work items miss each other at a barrier (C96 for `float`). Here the weights are 4194304 and 16777227: the processor writes a map,
and the device, for which 16777227 is 16777228, says that there is none, though its work items do not miss each other. -/
theorem C100_found_refuted : ∃ launch : Launcher Single, launch.Possible cspIteration (· = fun _ => 0) ∧
    (farWorld launch).Reasonable 1 ∧ (farWorld launch).Runs 64 1 ∧
    (farWorld launch).Devices (Ieee.convert : Double → Single) (· = fun _ => 0) ∧ OneGroup (· = fun _ => 0) ∧
    (∃ left right, readImage (farWorld launch) (bytes "l") = .ok left ∧ readImage (farWorld launch) (bytes "r") = .ok right ∧
      left.height = 1 ∧ right.height = 1) ∧
    ∃ out out' text,
      program (farWorld launch) (.parsed (farOptions none)) = .ok out ∧
      program (farWorld launch) (.parsed (farOptions (some "CL"))) = .ok out' ∧
      out.written = some (bytes "o", text) ∧ out'.written = none ∧ out'.err = [.logicError "Cannot find label for the pixel"] := by
  refine ⟨_, far_launch, ⟨by show 1000 < 2147483648; decide, by decide, by decide, fun _ => rfl⟩, .inr rfl, ⟨fun f hf => ?_, fun f hf => by cases hf⟩,
    fun group h i j => by rw [h], ?_, _, _, _, far_cpu _, far_computed rfl far_cl, rfl, rfl, rfl⟩
  · cases hf
    exact ⟨_, far_launch, .inl rfl⟩
  · have key : ∀ {m : M Image} {im : Image}, m.toOption = some im → m = .ok im := by
      intro m im h
      cases m with
      | error e => cases h
      | ok a => cases h; rfl
    have h1 : (readImage (farWorld fun _ _ => .error .ub) (bytes "l")).toOption = some (img 6 1 15 [0, 15, 15, 15, 8, 7]) := by decide +kernel
    have h2 : (readImage (farWorld fun _ _ => .error .ub) (bytes "r")).toOption = some (img 6 1 15 [0, 7, 7, 7, 7, 7]) := by decide +kernel
    exact ⟨_, _, key h1, key h2, rfl, rfl⟩

/-- A file written with workers executed one after another is also written in the executions that are possible. -/
theorem program_solver {F : Type} [FloatOps F] {world : World F} {solve : Solver F}
    (hs : ∀ n c, Refines (fun _ => True) (solve n c) (world.solve n c)) {o : Options} (ho : o.parallel = none) {out : Outcome}
    (h : program world (.parsed o) = .ok out) {w : Text × Text} (hwr : out.written = some w) :
    program { world with solve := solve } (.parsed o) = .ok out := by
  rcases program_cases world (.parsed o) with ⟨e, h1, -⟩ | ⟨h1, -⟩ | ⟨h1, -⟩ | ⟨o', l, r, p, ms, f, hcl, hl, hr, hp, hc, h1⟩
  · rw [h] at h1; cases h1; cases hwr
  · rw [h] at h1; cases h1; cases hwr
  · rw [h] at h1; cases h1; cases hwr
  cases hcl
  rw [ho] at hc
  cases hc
  rw [h] at h1
  have h2 := handle_written h1.symm hwr
  have h3 : compute { world with solve := solve } o (Par.labelCpu solve) l r p = compute world o (Par.labelCpu world.solve) l r p := by
    rw [h2]
    unfold compute at h2 ⊢
    obtain ⟨g, hg, h3⟩ := bind_eq_ok h2
    obtain ⟨im, him, h4⟩ := bind_eq_ok h3
    rw [show readGraph { world with solve := solve } o l r = .ok g from hg, bind_ok]
    rw [← disparityMap_labeled] at him ⊢
    rcases refines_disparityMap hs g with ⟨e, -, h5⟩ | h5
    · rw [him] at h5
      cases h5
    · rw [h5, him, bind_ok]
      exact h4
  rw [h1, ← h3]
  unfold program
  simp only [ho, hl, hr, hp]
  rfl

theorem floatWorld_harmless (launch : Launcher Single) (path text : Text) (h : (floatWorld launch).file path = some text) : HarmlessFile text := by
  have : text = bytes "P2 4 1 4 4 4 0 4" ∨ text = bytes "P2 4 1 4 4 0 0 4" := by
    unfold floatWorld at h
    dsimp only at h
    split at h
    · exact .inl (Option.some.inj h).symm
    · split at h
      · exact .inr (Option.some.inj h).symm
      · cases h
  have key : ∀ ds, HarmlessHeader (bytes "P2" :: bytes "4" :: bytes "1" :: bytes "4" :: ds) := by
    rintro ds w h m ⟨a, b, c, ds', e, ha, hb, -⟩
    simp only [List.cons.injEq] at e
    obtain ⟨-, rfl, rfl, -⟩ := e
    have hv : ∀ v, NumberOf (bytes "4") v → v = 4 := by
      intro v hv
      have e1 := (numberOf_iff (instructions_valid (s := bytes "4") (t := bytes "4") (by decide +kernel))).2 hv
      have e2 : stoul (bytes "4") = .ok 4 := by decide +kernel
      rw [e1] at e2
      exact Except.ok.inj e2
    have hv' : ∀ v, NumberOf (bytes "1") v → v = 1 := by
      intro v hv
      have e1 := (numberOf_iff (instructions_valid (s := bytes "1") (t := bytes "1") (by decide +kernel))).2 hv
      have e2 : stoul (bytes "1") = .ok 1 := by decide +kernel
      rw [e1] at e2
      exact Except.ok.inj e2
    rw [hv w ha, hv' h hb]
    decide
  rcases this with rfl | rfl
  · refine ⟨by unfold Ascii; decide +kernel, ?_⟩
    rw [show instructions (bytes "P2 4 1 4 4 4 0 4") = bytes "P2" :: bytes "4" :: bytes "1" :: bytes "4" ::
      [bytes "4", bytes "4", bytes "0", bytes "4"] by decide +kernel]
    exact key _
  · refine ⟨by unfold Ascii; decide +kernel, ?_⟩
    rw [show instructions (bytes "P2 4 1 4 4 0 0 4") = bytes "P2" :: bytes "4" :: bytes "1" :: bytes "4" ::
      [bytes "4", bytes "0", bytes "0", bytes "4"] by decide +kernel]
    exact key _

/-- C100: the assumptions of the partial theorem hold for some images, weights and devices. -/
example : ∃ (world : World Double) (o : Options) (out : Outcome) (path text : Text), world.Reasonable 1 ∧ world.solve.Possible 64 1 ∧
    world.Devices (Ieee.convert : Double → Single) (· = fun _ => 0) ∧ OneGroup (· = fun _ => 0) ∧
    (∀ path text, world.file path = some text → HarmlessFile text) ∧ o.parallel = some (bytes "CL") ∧
    program world (.parsed { o with parallel := none }) = .ok out ∧ out.written = some (path, text) ∧
    (∀ r right, o.rightImage = some r → readImage world r = .ok right → right.height = 1) ∧
    ∀ l r, o.leftImage = some l → o.rightImage = some r → world.InRange 24 o l r := by
  obtain ⟨solve, h1, h2⟩ := Solver.Possible.seq (F := Double) 64 1
  have hp : program (floatWorld (.ofTurns cspIteration (fun _ => 0) farTurns)) (.parsed (weighted none none none)) =
      .ok { exit := 0, written := some (bytes "o", bytes "P2\n4 1\n3\n0 1 0 0\n") } := by
    show program (floatWorld fun _ _ => .error .ub) (.parsed (weighted none none none)) = _
    decide +kernel
  have one : ∀ c, weightNumber ((none : Option String).map bytes) = .ok c → c.toNat ≤ 2 ^ 0 := by
    intro c hc
    cases hc
    decide
  refine ⟨{ floatWorld (.ofTurns cspIteration (fun _ => 0) farTurns) with solve := solve }, weighted none none (some "CL"), _, _, _,
    ⟨by show 1000 < 2147483648; decide, by decide, by decide, fun _ => rfl⟩, h1, ⟨fun f hf => ?_, fun f hf => by cases hf⟩,
    fun group h i j => by rw [h], floatWorld_harmless (.ofTurns cspIteration (fun _ => 0) farTurns), rfl, program_solver h2 rfl hp rfl, rfl, fun r right q1 q2 => ?_, fun l r q1 q2 => ?_⟩
  · cases hf
    exact ⟨_, far_launch, .inl rfl⟩
  · cases q1
    have := (floatWorld_images (.ofTurns cspIteration (fun _ => 0) farTurns)).2
    rw [show readImage { floatWorld (.ofTurns cspIteration (fun _ => 0) farTurns) with solve := solve } (bytes "r") = _ from this] at q2
    cases q2
    rfl
  · exact floatWorld_inRange (.ofTurns cspIteration (fun _ => 0) farTurns) (a := 0) (d := 0) (by norm_num) (by norm_num) one one _ l r rfl q1 q2

end SP
