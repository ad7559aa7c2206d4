import Verif.Lemmas.PerfectDouble
import Verif.Props.NearDevice
/-!
# Perfect labelings are found

Claim C101. If some labeling is the best one for each pixel and for each pair of neighbors at once, then every technology finds it.
-/
namespace SP
open FloatOps Gpu

section
variable {F D : Type} [FloatOps F] [LawfulFloat F] [FloatOps D] {g : DisparityGraph F} {L : Nat → Nat → Nat} {B : Nat} {jobs : UInt64}
  {solve : Solver F}

omit [LawfulFloat F] in
/-- The image is the only one. -/
theorem MapOf.unique {im im' : Image} (h : MapOf g L im) (h' : MapOf g L im') : im = im' := by
  obtain ⟨w, ht, m, data⟩ := im
  obtain ⟨w', ht', m', data'⟩ := im'
  obtain ⟨a1, a2, a3, a4, a5⟩ := h
  obtain ⟨b1, b2, b3, b4, b5⟩ := h'
  simp only at a1 a2 a3 a4 b1 b2 b3 b4
  subst a1 a2 a3 b1 b2 b3
  congr 1
  refine Array.ext (a4.trans b4.symm) fun i hi hi' => ?_
  have hw : 0 < g.w := by
    rcases Nat.eq_zero_or_pos g.w with h0 | h0
    · rw [a4, h0, Nat.zero_mul] at hi
      exact absurd hi i.not_lt_zero
    · exact h0
  have hx : i % g.w < g.w := Nat.mod_lt _ hw
  have hy : i / g.w < g.h := Nat.div_lt_of_lt_mul (a4 ▸ hi)
  have h1 := a5 _ _ hx hy
  rw [← b5 _ _ hx hy] at h1
  have hidx : i % g.w + g.w * (i / g.w) = i := Nat.mod_add_div i g.w
  unfold Image.at pidx at h1
  simp only [show g.right.width.toNat = g.w from rfl, hidx] at h1
  simp only [Array.getD, hi, hi', dif_pos] at h1
  exact UInt64.toNat_inj.1 h1

omit [LawfulFloat F] in
theorem MapOf.sized {im : Image} (h : MapOf g L im) (hL : ∀ x y, x < g.w → y < g.h → g.IsNode x y (L x y)) : SizedMap g im :=
  ⟨h.width, h.height, h.levels, h.size, fun x y hx hy => by rw [h.value x y hx hy]; exact (hL x y hx hy).2.2.1⟩

/-- **C101**, threads: whatever their number and schedule, a perfect labeling is found, unless they go on forever. -/
theorem C101_perfect (hs : solve.Possible B jobs) (hg : g.Fresh) (hj : 0 < jobs.toNat) (hfit : g.h + jobs.toNat ≤ 18446744073709551616)
    (hL : g.Perfect L) : Res (Hangs solve B jobs) (Par.disparityMap solve g) (MapOf g L) := by
  rw [disparityMap_labeled]
  exact (par_labeledMap_of hs hg hj hfit hL fun n _ _ ht hsol => par_labelCpu_best hs hg hj hfit hL n ht hsol).weaken fun _ h => h.elim id id

variable {conv : F → D} {allowed : (Nat → Nat) → Prop} {find : ConstraintGraph F → M (ConstraintGraph F × Bool)}

/-- A device that may fail finds the labeling if nothing prevents it. -/
theorem Gpu.Finder.found {find' : ConstraintGraph F → M (ConstraintGraph F × Bool)} (hf : Finder conv allowed find)
    (hlim : ∀ c, (∃ e, DeviceFails e ∧ find' c = .error e) ∨ find' c = find c) (hs : solve.Possible B jobs) (hg : g.Fresh)
    (hj : 0 < jobs.toNat) (hfit : g.h + jobs.toNat ≤ 18446744073709551616) (hL : g.Perfect L)
    (hdevice : ∀ c t, le zero t = true → Solved g t c → Consistent c.w c.h (c.onDevice conv).E c.Av L ∧ KeepsBest (c.onDevice conv) L) :
    Res (fun e => Hangs solve B jobs e ∨ DeviceFails e ∨ ∃ kernel : Kernel D, IsKernel kernel ∧ Misses kernel allowed e)
      (Par.labeledMap solve (fun _ => find') g) (MapOf g L) := by
  refine par_labeledMap_of hs hg hj hfit hL fun n c t ht hsol => ?_
  obtain ⟨h1, h2⟩ := hdevice c t ht hsol
  rcases hlim c with ⟨e, he, h⟩ | h
  · rw [h]
    exact .inl he
  · rw [h]
    exact (hf.best hsol.valid hsol.proper h1 h2).weaken fun e he => .inr he

/-- **C101**, devices: whatever the schedule and the work groups, a perfect labeling is found, if conversion of numbers loses nothing, and unless
work items miss each other at a barrier. -/
theorem C101_device [LawfulFloat D] (hf : Finder conv allowed find) (hconv : Faithful conv) (hs : solve.Possible B jobs) (hg : g.Fresh)
    (hj : 0 < jobs.toNat) (hfit : g.h + jobs.toNat ≤ 18446744073709551616) (hL : g.Perfect L) :
    Res (fun e => Hangs solve B jobs e ∨ ∃ kernel : Kernel D, IsKernel kernel ∧ Misses kernel allowed e)
      (Par.labeledMap solve (fun _ => find) g) (MapOf g L) := by
  refine par_labeledMap_of hs hg hj hfit hL fun n c t ht hsol => ?_
  obtain ⟨h1, h2⟩ := hsol.perfect hg ht hL
  refine hf.best hsol.valid hsol.proper (by rw [onDevice_E hconv hsol.valid]; exact h1) (LocallyBest.keeps ?_ ?_)
  · exact fun x y d hd => (notWorse_onDevice hconv hsol.valid).2 (h2 x y d hd)
  · exact onDevice_nodeQ_nonneg hconv hsol.valid (by rw [hsol.graph_eq hg]; exact nodeQ_nonneg hg)

/-- What the program does, if the map with the property `R` is to be found: it goes on forever; or work items of a device miss each other at a
barrier; or it says that there is no such technology or that the device has failed; or it writes this map. -/
def World.Finds (D : Type) [FloatOps D] (world : World F) (B : Nat) (jobs : UInt64) (allowed : (Nat → Nat) → Prop) (o : Options) (path : Text)
    (R : Image → Prop) : Prop :=
  (program world (.parsed o) = .error .nonterm ∧ B ≠ 1 ∧ jobs ≠ 1) ∨
  (o.parallel ≠ none ∧ program world (.parsed o) = .error .ub ∧ ∃ kernel : Kernel D, IsKernel kernel ∧ Misses kernel allowed .ub) ∨
  ∃ out, program world (.parsed o) = .ok out ∧
    ((o.parallel ≠ none ∧ out.written = none ∧ (out.exit = 1 ∨ .cudaFailure ∈ out.out)) ∨
      (out.exit = 0 ∧ out.err = [] ∧ ∃ im text, R im ∧ writePgm (some im) = .ok text ∧
        out.written = if world.writable path then some (path, text) else none))

/-- The program with any technology. -/
theorem World.finds {world : World F} (hw : world.Reasonable jobs) (hs : world.solve.Possible B jobs) (hdev : world.Devices conv allowed)
    {o : Options} {l r p : Text} (hl : o.leftImage = some l) (hr : o.rightImage = some r) (hp : o.outputImage = some p)
    (hg : readGraph world o l r = .ok g) (hL : g.Perfect L)
    (hdevice : ∀ c t, le zero t = true → Solved g t c → Consistent c.w c.h (c.onDevice conv).E c.Av L ∧ KeepsBest (c.onDevice conv) L) :
    world.Finds D B jobs allowed o p (MapOf g L) := by
  obtain ⟨left, right, levels, cleanness, smoothness, -, -, -, -, -, ha, hls, hrs, hsm, rfl⟩ := readGraph_ok hw hg
  obtain ⟨f1, f2, f3⟩ := fresh_limits hw ha hls hrs hsm
  have hprog : program world (.parsed o) = match chooseParallelism world o.parallel with
      | none => .ok { exit := 1, err := [.unexpected "`parallel` cannot be"] }
      | some (out, label) => handle out (compute world o label l r p) := by
    unfold program
    simp only [hl, hr, hp]
    rfl
  unfold World.Finds
  rw [hprog]
  cases hc : chooseParallelism world o.parallel with
  | none =>
    refine .inr (.inr ⟨_, rfl, .inl ⟨?_, rfl, .inl rfl⟩⟩)
    rintro hn
    rw [hn] at hc
    cases hc
  | some q =>
    obtain ⟨ms, f⟩ := q
    simp only
    have hrest : ∀ {im : Image}, MapOf (freshGraph left right levels cleanness smoothness) L im → Par.labeledMap world.solve f (freshGraph left right levels cleanness smoothness) = .ok im →
        ∃ out, handle ms (compute world o f l r p) = .ok out ∧ out.exit = 0 ∧ out.err = [] ∧ ∃ im text,
          MapOf (freshGraph left right levels cleanness smoothness) L im ∧ writePgm (some im) = .ok text ∧
          out.written = if world.writable p then some (p, text) else none := by
      intro im him hm
      obtain ⟨m1, m2⟩ := (him.sized fun x y hx hy => (hL.node x y hx hy).1).meaningful f1 f3
      obtain ⟨text, ht, -⟩ := writePgm_mk m1 m2
      unfold compute
      rw [hg, bind_ok, hm, bind_ok, ht, bind_ok]
      refine ⟨_, rfl, rfl, rfl, im, text, him, ht, ?_⟩
      unfold World.stored
      simp only [hw.room]
    have herr : ∀ {e : Err}, Par.labeledMap world.solve f (freshGraph left right levels cleanness smoothness) = .error e → compute world o f l r p = .error e := by
      intro e he
      unfold compute
      rw [hg, bind_ok, he]
      rfl
    have hsplit : f = Par.labelCpu world.solve ∨ (o.parallel ≠ none ∧ ∃ find find', Finder conv allowed find ∧
        (∀ c, (∃ e, DeviceFails e ∧ find' c = .error e) ∨ find' c = find c) ∧ f = fun _ => find') := by
      by_cases hpar : o.parallel = none
      · rw [hpar] at hc
        cases hc
        exact .inl rfl
      · exact (chooseParallelism_finder hdev hc).imp id fun h => ⟨hpar, h⟩
    rcases hsplit with hcpu | ⟨hpar, find, find', hf, hlim, hcpu⟩
    · have := C101_perfect hs f1 hw.jobs_pos f2 hL
      rw [disparityMap_labeled, ← hcpu] at this
      cases hm : Par.labeledMap world.solve f (freshGraph left right levels cleanness smoothness) with
      | ok im =>
        rw [hm] at this
        obtain ⟨out, h1, h2⟩ := hrest this hm
        exact .inr (.inr ⟨out, h1, .inr h2⟩)
      | error e =>
        rw [hm] at this
        obtain ⟨rfl, h1, h2⟩ := this
        rw [herr hm]
        exact .inl ⟨rfl, h1⟩
    · have := hf.found hlim hs f1 hw.jobs_pos f2 hL hdevice
      rw [← hcpu] at this
      cases hm : Par.labeledMap world.solve f (freshGraph left right levels cleanness smoothness) with
      | ok im =>
        rw [hm] at this
        obtain ⟨out, h1, h2⟩ := hrest this hm
        exact .inr (.inr ⟨out, h1, .inr h2⟩)
      | error e =>
        rw [hm] at this
        rw [herr hm]
        rcases this with ⟨rfl, h1, h2⟩ | h | ⟨kernel, h1, h2⟩
        · exact .inl ⟨rfl, h1⟩
        · refine .inr (.inr ?_)
          rcases h with rfl | ⟨what, rfl⟩
          · exact ⟨_, rfl, .inl ⟨hpar, rfl, .inr (by simp)⟩⟩
          · exact ⟨_, rfl, .inl ⟨hpar, rfl, .inl rfl⟩⟩
        · obtain rfl := h2.1
          exact .inr (.inl ⟨hpar, rfl, kernel, h1, h2⟩)

end

/-! ## `double` and `float` -/

theorem onDevice_fresh_nodeQ {F D : Type} [FloatOps F] [FloatOps D] {conv : F → D} (hz : conv zero = zero) {left right : Image} {levels : UInt64} {c s : F}
    (hwidth : left.width = right.width) (x y d : ℕ) : ((freshGraph left right levels c s).onDevice conv).nodeQ x y d =
      add (add (add (add (mul (conv c) (sqr (sub (ofNat (right.at x y)) (ofNat (left.at (x + d) y))))) zero) zero) zero) zero := by
  have hphi : ∀ x y d k, ((freshGraph left right levels c s).onDevice conv).phi x y d k = zero := by
    intro x y d k
    unfold DisparityGraph.phi freshGraph DisparityGraph.onDevice
    simp only [Array.map_replicate, Array.getD_eq_getD_getElem?, Array.getElem?_replicate, hz]
    split <;> rfl
  have hat : ((freshGraph left right levels c s).onDevice conv).left.at (x + d) y = left.at (x + d) y := by
    unfold Image.at
    rw [show ((freshGraph left right levels c s).onDevice conv).left.width = right.width from rfl, ← hwidth]
    rfl
  unfold DisparityGraph.nodeQ
  simp only [hphi, hat]
  rfl

/-- Thresholds that are not negative remain so. -/
theorem toSingle_le {t : Format.binary64.Num} (ht : le zero t = true) : le zero (toSingle t) = true := by
  have hz : (zero : Format.binary64.Num).1 = 0 := by decide +kernel
  have ht' : 0 ≤ t.1 := hz ▸ of_decide_eq_true ht
  rw [toSingle_nonneg ht', ← carrier_single126.zero]
  unfold Ieee.rounded
  split
  · refine decide_eq_true ?_
    rw [Ieee.signed_abs]
    show _ ≤ Format.binary32.nearest _
    rw [show (zero : Format.binary32.Num).1 = 0 by decide +kernel]
    exact nearest_nonneg (abs_nonneg _)
  · rfl

/-- Conversion of weights. -/
theorem toSingle_ofNat {n : ℕ} (hn : n ≤ 2 ^ 64) : ∃ m : ℕ, m ≤ 2 ^ 64 ∧ toSingle (ofNat n) = ofNat m ∧ (n = 0 ↔ m = 0) := by
  obtain ⟨A, eA, A0, A1, hA⟩ := Format.ofNat_error (fmt := .binary64) (k := 64) (by decide) hn
  obtain ⟨a, rfl⟩ := Int.eq_ofNat_of_zero_le A0
  refine ⟨a, by exact_mod_cast A1, toSingle_nat (n := a) (by rw [eA]; rfl), ?_, ?_⟩
  · rintro rfl
    simpa using hA
  · rintro rfl
    by_contra h0
    have h3 : (1 : ℚ) ≤ n := by exact_mod_cast Nat.one_le_iff_ne_zero.2 h0
    rw [show Format.binary64.unit = 1 / 2 ^ 53 from rfl] at hA
    have := (abs_le.1 hA).1
    simp only [Nat.cast_zero, Int.cast_zero] at this
    linarith

/-- A device with `float` finds ideal labelings. -/
theorem Solved.single {left right : Image} {levels : UInt64} {c s : ℕ} {L : Nat → Nat → Nat} (hc : c ≤ 2 ^ 64) (hs : s ≤ 2 ^ 64)
    (hl : ∀ x y, left.at x y ≤ 2 ^ 16) (hr : ∀ x y, right.at x y ≤ 2 ^ 16) (hwidth : left.width = right.width)
    (hlev : levels.toNat ≤ 2 ^ 31) (hg : (freshGraph left right levels (ofNat c : Format.binary64.Num) (ofNat s)).Fresh)
    (hL : (freshGraph left right levels (ofNat c : Format.binary64.Num) (ofNat s)).Ideal c s L)
    {t : Format.binary64.Num} (ht : le zero t = true) {cg : ConstraintGraph Format.binary64.Num}
    (hsol : Solved (freshGraph left right levels (ofNat c : Format.binary64.Num) (ofNat s)) t cg) :
    Consistent cg.w cg.h (cg.onDevice toSingle).E cg.Av L ∧ KeepsBest (cg.onDevice toSingle) L := by
  have hP := hL.perfect (k := 192) (a := 64) (by decide) (by decide) (by norm_num) hc hl hr
  obtain ⟨h1, h2⟩ := hsol.perfect hg ht hP
  obtain ⟨a, ha, ea, ha0⟩ := toSingle_ofNat hc
  obtain ⟨b, hb, eb, hb0⟩ := toSingle_ofNat hs
  obtain ⟨p, c0, htab, hc0, k1, k3⟩ := hsol.start
  obtain ⟨c0', hc0', -, -, -, a4, a5, a6, a7⟩ := start_mk hg htab t
  rw [hc0] at hc0'
  cases hc0'
  have hgr := hsol.graph_eq hg
  have hth : cg.threshold = t := by rw [k1.2.2, a5]
  have ew : cg.w = right.width.toNat := hsol.w_eq
  have eh : cg.h = right.height.toNat := hsol.h_eq
  have hgd : (cg.onDevice toSingle).disparityGraph = (freshGraph left right levels (ofNat c : Format.binary64.Num) (ofNat s)).onDevice toSingle := by
    show cg.disparityGraph.onDevice toSingle = _
    rw [hgr]
  have hI : (freshGraph left right levels (ofNat a : Format.binary32.Num) (ofNat b)).Ideal a b L :=
    hL.fresh ha0 hb0
  have hP' := hI.perfect (k := 126) (a := 64) (by decide) (by decide) (by norm_num) ha hl hr
  constructor
  · intro x y hx hy
    refine ⟨(h1 x y hx hy).1, fun k hk => ⟨((h1 x y hx hy).2 k hk).1, ?_⟩⟩
    rw [ew] at hx
    rw [eh] at hy
    rw [ew, eh] at hk
    rw [onDevice_edgeMin toSingle_zero hsol.valid, k1.2.1, a6, htab.edge x y k hk, toSingle_zero, show (cg.onDevice toSingle).threshold = toSingle cg.threshold from rfl, hth,
      hgd, onDevice_fresh_edgeQ toSingle_zero, eb]
    obtain ⟨-, -, hm⟩ := carrier_single126.penalty 64 31 b (L x y) (L (nbx x k) (nby y k)) (by norm_num) hb
      ((hI.node x y hx hy).1.2.2.1.le.trans hlev) ((hI.edge x y k hk).1.2.2.1.2.2.1.le.trans hlev)
    have hz : sub (Ieee.of (.refl .binary32) zero) zero = (Ieee.of (.refl .binary32) zero : Single) := by
      rw [← carrier_single126.zero, ← carrier_single126.sub _ _ carrier_single126.P_zero carrier_single126.P_zero,
        carrier_single126.sub_zero _ carrier_single126.P_zero]
    rw [hm, Format.penalty_zero (hI.edge x y k hk).2, hz, hz, carrier_single126.zero']
    exact toSingle_le ht
  · refine keepsBest_of carrier_single126.toHom (q := (freshGraph left right levels (ofNat a : Format.binary32.Num) (ofNat b)).nodeQ) ?_ ?_ ?_
    · intro x y d _
      obtain ⟨hp, hm, -⟩ := carrier_single126.penalty 64 16 a (right.at x y) (left.at (x + d) y) (by norm_num) ha (hr _ _) (hl _ _)
      rw [hgd, onDevice_fresh_nodeQ toSingle_zero hwidth, ea, hm, carrier_single126.add_zero' _ hp, carrier_single126.add_zero' _ hp,
        carrier_single126.add_zero' _ hp, fresh_nodeQ]
    · intro x y d
      rw [fresh_nodeQ]
      have := LawfulFloat.mul_mono _ _ _ (LawfulFloat.ofNat_mono 0 a a.zero_le)
        (LawfulFloat.sqr_nonneg (sub (ofNat (right.at x y)) (ofNat (left.at (x + d) y)) : Format.binary32.Num))
      rwa [LawfulFloat.mul_zero] at this
    · intro x y d hd
      have hn := hsol.proper _ _ _ (show cg.Av x y d from hd)
      rw [hgr] at hn
      obtain ⟨n1, n2, n3, n4⟩ := hn
      have m1 : x < right.width.toNat := n1
      have m2 : y < right.height.toNat := n2
      have m3 : d < levels.toNat := n3
      have m4 : x + d < right.width.toNat := n4
      exact (hP'.node x y m1 m2).2 d ⟨m1, m2, m3, m4⟩

section
variable {allowed : (Nat → Nat) → Prop} {B : Nat} {jobs : UInt64} {world : World Double} {o : Options} {l r p : Text} {g : DisparityGraph Double}

/-- **C101**. The program with `double` and a device with `float`: whatever the threads, the technology and the schedules, if there is an ideal
labeling, the program writes it. Instead of this threads may go on forever, work items of a device may miss each other at a barrier, and the
technology may be unknown or fail. -/
theorem C101_program (hw : world.Reasonable jobs) (hs : world.solve.Possible B jobs) (hdev : world.Devices (Ieee.convert : Double → Single) allowed)
    (hl : o.leftImage = some l) (hr : o.rightImage = some r) (hp : o.outputImage = some p) (hg : readGraph world o l r = .ok g)
    {c s : UInt64} (hc : weightNumber o.cleanness = .ok c) (hsm : weightNumber o.smoothness = .ok s) {L : Nat → Nat → Nat}
    (hL : g.Ideal c.toNat s.toNat L) : world.Finds Single B jobs allowed o p (MapOf g L) := by
  obtain ⟨world', h1, -, h2, h3⟩ := World.pull carrier_double (.inl hs) hdev
  have hw' : world'.Reasonable jobs := ⟨h1.memory ▸ hw.memory, hw.jobs_pos, hw.jobs_small, h1.room ▸ hw.room⟩
  have hsim := readGraph_transfer carrier_double h1 o l r (world'.inRange_192 o l r)
  rw [hg] at hsim
  cases hg' : readGraph world' o l r with
  | error e => rw [hg'] at hsim; exact hsim.elim
  | ok g' =>
  rw [hg'] at hsim
  obtain ⟨-, rfl⟩ := hsim
  obtain ⟨left, right, levels, c', s', q1, q2, -, q4, q5, ha, hls, hrs, hsmall, rfl⟩ := readGraph_ok hw' hg'
  rw [weightOption_eq, hc] at q4
  rw [weightOption_eq, hsm] at q5
  cases q4
  cases q5
  obtain ⟨tl, -, ⟨-, -, -, -, -, -, -, -, ml, -⟩, -⟩ := readImage_ok q1
  obtain ⟨tr, -, ⟨-, -, -, -, -, -, -, -, mr, -⟩, -⟩ := readImage_ok q2
  rw [UInt64.le_iff_toNat_le] at ml mr
  have hl16 : ∀ x y, left.at x y ≤ 2 ^ 16 := fun x y => (ha.1.at_le x y).trans ml
  have hr16 : ∀ x y, right.at x y ≤ 2 ^ 16 := fun x y => (ha.2.1.at_le x y).trans mr
  have hlev : levels.toNat ≤ 2 ^ 31 := by
    have h4 := ha.2.2.2.1
    have h5 := Nat.le_mul_of_pos_right left.width.toNat ha.1.2.1
    have h6 := hls.size
    omega
  have hfresh := (fresh_limits hw' ha hls hrs hsmall).1
  have hL' : (freshGraph left right levels (ofNat c.toNat : Format.binary64.Num) (ofNat s.toNat)).Ideal c.toNat s.toNat L :=
    .congr (g := (freshGraph left right levels (ofNat c.toNat : Format.binary64.Num) (ofNat s.toNat)).mapF (.of toDouble))
      (g' := freshGraph left right levels (ofNat c.toNat : Format.binary64.Num) (ofNat s.toNat)) rfl rfl rfl .rfl .rfl hL
  have hfinds := World.finds hw' (h2 hs) h3 hl hr hp hg'
    (hL'.perfect (k := 192) (a := 64) (by decide) (by decide) (by norm_num) c.toNat_lt.le hl16 hr16)
    (fun cg t ht hsol => hsol.single c.toNat_lt.le s.toNat_lt.le hl16 hr16 ha.2.2.2.2.1 hlev hfresh hL' ht)
  unfold World.Finds at hfinds ⊢
  rw [program_transfer carrier_double h1 _ fun o' l r _ _ _ => world'.inRange_192 o' l r, ← h1.writable]
  refine hfinds.imp id (.imp id ?_)
  rintro ⟨out, e1, e2⟩
  refine ⟨out, e1, e2.imp id ?_⟩
  rintro ⟨e3, e4, im, text, e5, e6, e7⟩
  exact ⟨e3, e4, im, text, ⟨e5.width, e5.height, e5.levels, e5.size, e5.value⟩, e6, e7⟩

/-- If the best match of each pixel is at the same place, or matches do not matter, then the map consists of zeros. -/
theorem C101_zeros (hw : world.Reasonable jobs) (hs : world.solve.Possible B jobs) (hdev : world.Devices (Ieee.convert : Double → Single) allowed)
    (hl : o.leftImage = some l) (hr : o.rightImage = some r) (hp : o.outputImage = some p) (hg : readGraph world o l r = .ok g)
    (hm : weightNumber o.cleanness = .ok 0 ∨ ∀ x y d, g.IsNode x y d → g.mismatch x y 0 ≤ g.mismatch x y d) :
    world.Finds Single B jobs allowed o p (MapOf g fun _ _ => 0) := by
  obtain ⟨left, right, levels, c', s', -, -, -, q4, q5, ha, hls, hrs, hsmall, rfl⟩ := readGraph_ok hw hg
  rw [weightOption_eq] at q4 q5
  cases hc : weightNumber o.cleanness with
  | error e => rw [hc] at q4; cases q4
  | ok c =>
  cases hsm : weightNumber o.smoothness with
  | error e => rw [hsm] at q5; cases q5
  | ok s =>
  refine C101_program hw hs hdev hl hr hp hg hc hsm (.zeros (freshGraph_valid hls hrs ha (accepted_fits ha hls hsmall)).1 (hm.imp (fun h => ?_) id))
  rw [hc] at h
  cases h
  rfl

/-- In particular, if the images are equal. -/
theorem C101_equal_images (hw : world.Reasonable jobs) (hs : world.solve.Possible B jobs)
    (hdev : world.Devices (Ieee.convert : Double → Single) allowed) (hl : o.leftImage = some l) (hr : o.rightImage = some r)
    (hp : o.outputImage = some p) (hg : readGraph world o l r = .ok g) (heq : readImage world l = readImage world r) :
    world.Finds Single B jobs allowed o p (MapOf g fun _ _ => 0) := by
  refine C101_zeros hw hs hdev hl hr hp hg (.inr fun x y d _ => ?_)
  obtain ⟨left, right, levels, c', s', q1, q2, -, -, -, -, -, -, -, rfl⟩ := readGraph_ok hw hg
  rw [heq, q2] at q1
  cases q1
  have : (freshGraph left left levels c' s').mismatch x y 0 = 0 := by
    show ((left.at x y : Int) - left.at (x + 0) y).natAbs = 0
    rw [Nat.add_zero, Int.sub_self]
    rfl
  rw [this]
  exact Nat.zero_le _

end

/-- What perfect labelings are in exact arithmetic. -/
theorem C101_perfect_exact {left right : Image} {levels : UInt64} {c s : ℕ} {L : Nat → Nat → Nat}
    (hg : (freshGraph left right levels (ofNat c : ℚ) (ofNat s)).Fresh) :
    (freshGraph left right levels (ofNat c : ℚ) (ofNat s)).Perfect L ↔ (freshGraph left right levels (ofNat c : ℚ) (ofNat s)).Ideal c s L :=
  DisparityGraph.perfect_iff_ideal hg

/-! ## Non-vacuity -/

section
set_option maxRecDepth 1000000

/-- Disparities of the images of `floatWorld`, if smoothness does not matter. -/
def matched (x _ : Nat) : Nat := if x = 1 then 1 else 0

theorem matched_ideal {F : Type} [FloatOps F] {c s : F} :
    (freshGraph (img 4 1 4 [4, 4, 0, 4]) (img 4 1 4 [4, 0, 0, 4]) 3 c s).Ideal 1 0 matched := by
  have table : ∀ x d : Fin 4, (matched x 0 < 3 ∧ x + matched x 0 < 4) ∧ ((d : Nat) < 3 → (x : Nat) + d < 4 →
      (((img 4 1 4 [4, 0, 0, 4]).at x 0 : Int) - (img 4 1 4 [4, 4, 0, 4]).at (x + matched x 0) 0).natAbs ≤
        (((img 4 1 4 [4, 0, 0, 4]).at x 0 : Int) - (img 4 1 4 [4, 4, 0, 4]).at (x + d) 0).natAbs ∧
      ((d : Nat) < matched x 0 → (((img 4 1 4 [4, 0, 0, 4]).at x 0 : Int) - (img 4 1 4 [4, 4, 0, 4]).at (x + matched x 0) 0).natAbs <
        (((img 4 1 4 [4, 0, 0, 4]).at x 0 : Int) - (img 4 1 4 [4, 4, 0, 4]).at (x + d) 0).natAbs)) := by decide +kernel
  have key : ∀ x, x < 4 → ∀ y, y < 1 → (matched x y < 3 ∧ x + matched x y < 4) ∧ ∀ d, d < 3 → x + d < 4 →
      (((img 4 1 4 [4, 0, 0, 4]).at x y : Int) - (img 4 1 4 [4, 4, 0, 4]).at (x + matched x y) y).natAbs ≤
        (((img 4 1 4 [4, 0, 0, 4]).at x y : Int) - (img 4 1 4 [4, 4, 0, 4]).at (x + d) y).natAbs ∧
      (d < matched x y → (((img 4 1 4 [4, 0, 0, 4]).at x y : Int) - (img 4 1 4 [4, 4, 0, 4]).at (x + matched x y) y).natAbs <
        (((img 4 1 4 [4, 0, 0, 4]).at x y : Int) - (img 4 1 4 [4, 4, 0, 4]).at (x + d) y).natAbs) := by
    intro x hx y hy
    obtain rfl : y = 0 := Nat.lt_one_iff.1 hy
    exact ⟨(table ⟨x, hx⟩ 0).1, fun d hd => (table ⟨x, hx⟩ ⟨d, hd.trans (by decide)⟩).2 hd⟩
  have node : ∀ x y, x < 4 → y < 1 → (freshGraph (img 4 1 4 [4, 4, 0, 4]) (img 4 1 4 [4, 0, 0, 4]) 3 c s).IsNode x y (matched x y) :=
    fun x y hx hy => ⟨hx, hy, (key x hx y hy).1.1, (key x hx y hy).1.2⟩
  refine ⟨fun x y hx hy => ⟨node x y hx hy, fun d hd => ?_⟩, fun x y k hk => ⟨⟨hk, node x y hk.1 hk.2.1, ?_, ?_⟩, .inl rfl⟩⟩
  · obtain ⟨h1, h2⟩ := (key x hx y hy).2 d hd.2.2.1 hd.2.2.2
    exact ⟨.inr h1, fun h => ⟨by decide, h2 h⟩⟩
  · obtain ⟨h1, h2, h3⟩ := hk
    have h1' : x < 4 := h1
    have h2' : y < 1 := h2
    refine node _ _ ?_ ?_
    · rcases h3 with ⟨rfl, h⟩ | ⟨rfl, h⟩ | ⟨rfl, h⟩ | ⟨rfl, h⟩
      · exact h
      · exact (Nat.sub_le x 1).trans_lt h1'
      · exact h1'
      · exact h1'
    · rcases h3 with ⟨rfl, h⟩ | ⟨rfl, h⟩ | ⟨rfl, h⟩ | ⟨rfl, h⟩
      · exact h2'
      · exact h2'
      · exact h
      · exact (Nat.sub_le y 1).trans_lt h2'
  · unfold OrderOK matched
    constructor
    · intro _; split <;> split <;> omega
    · intro _; split <;> split <;> omega

theorem floatWorld_graph (launch : Launcher Single) (solve : Solver Double) :
    ∃ g, readGraph { floatWorld launch with solve := solve } (weighted none (some "0") (some "CL")) (bytes "l") (bytes "r") = .ok g ∧
      g.left = img 4 1 4 [4, 4, 0, 4] ∧ g.right = img 4 1 4 [4, 0, 0, 4] ∧ g.disparityLevels = 3 := by
  have h : (readGraph (floatWorld fun _ _ => .error .ub) (weighted none (some "0") (some "CL")) (bytes "l") (bytes "r")).toOption.map
      (fun g => (g.left, g.right, g.disparityLevels)) = some (img 4 1 4 [4, 4, 0, 4], img 4 1 4 [4, 0, 0, 4], 3) := by decide +kernel
  rw [show readGraph (floatWorld fun _ _ => .error .ub) (weighted none (some "0") (some "CL")) (bytes "l") (bytes "r") =
    readGraph { floatWorld launch with solve := solve } (weighted none (some "0") (some "CL")) (bytes "l") (bytes "r") from rfl] at h
  cases hg : readGraph { floatWorld launch with solve := solve } (weighted none (some "0") (some "CL")) (bytes "l") (bytes "r") with
  | error e => rw [hg] at h; cases h
  | ok g =>
    rw [hg] at h
    simp only [Except.toOption, Option.map_some, Option.some.injEq, Prod.mk.injEq] at h
    exact ⟨g, rfl, h⟩

/-- C101: the assumptions hold for some images, weights, threads and devices. -/
example : ∃ (world : World Double) (o : Options) (l r p : Text) (g : DisparityGraph Double) (c s : UInt64), world.Reasonable 1 ∧
    world.solve.Possible 64 1 ∧ world.Devices (Ieee.convert : Double → Single) (· = fun _ => 0) ∧ o.leftImage = some l ∧ o.rightImage = some r ∧
    o.outputImage = some p ∧ o.parallel = some (bytes "CL") ∧ readGraph world o l r = .ok g ∧ weightNumber o.cleanness = .ok c ∧
    weightNumber o.smoothness = .ok s ∧ g.Ideal c.toNat s.toNat matched := by
  obtain ⟨solve, h1, h2⟩ := Solver.Possible.seq (F := Double) 64 1
  obtain ⟨g, e1, e2, e3, e4⟩ := floatWorld_graph (.ofTurns cspIteration (fun _ => 0) farTurns) solve
  refine ⟨{ floatWorld (.ofTurns cspIteration (fun _ => 0) farTurns) with solve := solve }, weighted none (some "0") (some "CL"), _, _, _, g, 1, 0,
    ⟨by show 1000 < 2147483648; decide, by decide, by decide, fun _ => rfl⟩, h1, ⟨fun f hf => ?_, fun f hf => by cases hf⟩,
    rfl, rfl, rfl, rfl, e1, by decide +kernel, by decide +kernel, ?_⟩
  · cases hf
    exact ⟨_, far_launch, .inl rfl⟩
  · exact .congr (g := freshGraph (img 4 1 4 [4, 4, 0, 4]) (img 4 1 4 [4, 0, 0, 4]) 3 (zero : Double) zero) (g' := g) e2 e3 e4 .rfl .rfl matched_ideal

/-- C101: a fresh graph with a perfect labeling. -/
example : ∃ g : DisparityGraph ℚ, g.Fresh ∧ g.Perfect matched := by
  have h0 : ∀ n : ℕ, le zero (ofNat n : ℚ) = true := fun n => LawfulFloat.ofNat_mono 0 n n.zero_le
  have hf : (freshGraph (img 4 1 4 [4, 4, 0, 4]) (img 4 1 4 [4, 0, 0, 4]) 3 (ofNat 1 : ℚ) (ofNat 0)).Fresh := by
    have ha : AcceptedInput (img 4 1 4 [4, 4, 0, 4]) (img 4 1 4 [4, 0, 0, 4]) 3 (1 : Int) 0 := by
      refine accepted_of ?_ ?_ ?_ ?_ ?_ ?_ ?_ rfl rfl rfl ?_ ?_ ?_ <;> decide
    obtain ⟨a1, a2, a3, a4, a5, a6, a7, -⟩ := ha
    have hn : ∀ n : ℕ, lt (ofNat n : ℚ) zero = false := fun n => LawfulFloat.not_lt_iff.2 (h0 n)
    exact freshGraph_fresh ⟨rfl, by decide⟩ ⟨rfl, by decide⟩ ⟨a1, a2, a3, a4, a5, a6, a7, hn 1, hn 0, by decide +kernel⟩ (by decide)
  exact ⟨_, hf, (C101_perfect_exact hf).2 matched_ideal⟩

/-- C101: equal images. -/
example : ∃ (world : World Double) (o : Options) (l r p : Text) (g : DisparityGraph Double), world.Reasonable 1 ∧
    world.solve.Possible 64 1 ∧ world.Devices (Ieee.convert : Double → Single) (· = fun _ => 0) ∧ o.leftImage = some l ∧ o.rightImage = some r ∧
    o.outputImage = some p ∧ o.parallel = some (bytes "CL") ∧ readGraph world o l r = .ok g ∧ readImage world l = readImage world r := by
  obtain ⟨solve, h1, h2⟩ := Solver.Possible.seq (F := Double) 64 1
  have h : (readGraph { floatWorld fun _ _ => .error .ub with solve := fun _ _ => .error .ub } { weighted none none (some "CL") with rightImage := some (bytes "l") }
      (bytes "l") (bytes "l")).toOption.isSome = true := by decide +kernel
  cases hg : readGraph { floatWorld (.ofTurns cspIteration (fun _ => 0) farTurns) with solve := solve }
    { weighted none none (some "CL") with rightImage := some (bytes "l") } (bytes "l") (bytes "l") with
  | error e =>
    rw [show readGraph { floatWorld fun _ _ => .error .ub with solve := fun _ _ => .error .ub }
      { weighted none none (some "CL") with rightImage := some (bytes "l") } (bytes "l") (bytes "l") = .error e from hg] at h
    cases h
  | ok g =>
    refine ⟨{ floatWorld (.ofTurns cspIteration (fun _ => 0) farTurns) with solve := solve },
      { weighted none none (some "CL") with rightImage := some (bytes "l") }, _, _, _, g,
      ⟨by show 1000 < 2147483648; decide, by decide, by decide, fun _ => rfl⟩, h1, ⟨fun f hf => ?_, fun f hf => by cases hf⟩, rfl, rfl, rfl, rfl, hg, rfl⟩
    cases hf
    exact ⟨_, far_launch, .inl rfl⟩

end

end SP
