import Verif.Props.GpuRefuted
/-!
# C82: what can be found by the choice of the best node in one pixel after another
-/
set_option linter.unusedSectionVars false

namespace SP
open FloatOps ConstraintGraph Gpu

section
variable {F D : Type} [FloatOps F] [LawfulFloat F] [FloatOps D] [LawfulFloat D] {conv : F → D} {allowed : (Nat → Nat) → Prop}
  {find : ConstraintGraph F → M (ConstraintGraph F × Bool)} {c : ConstraintGraph F} {g : DisparityGraph F} {B : Nat} {jobs : UInt64}
  {solve : Solver F} {t : F}

/-- **C82**, what holds. Full statement: for all accepted images a map is found by some of the technologies, with some number of threads
and some schedule. It is false (`C82_some_technology_refuted`). Here: all of them choose the best node in one pixel after another, and
remove nodes by looking at neighbors only. If this finds nothing, even when all the nodes are removed that can be excluded in this way,
then no map is found by any of the technologies. -/
theorem C82_some_technology_partial (hs : solve.Possible B jobs) (hg : g.Fresh) (hj : 0 < jobs.toNat)
    (hfit : g.h + jobs.toNat ≤ 18446744073709551616) {im : Image} :
    (Par.disparityMap solve g = .ok im → ∃ t, GreedyMap g t im) ∧
    (Finder conv allowed find → Faithful conv → Par.labeledMap solve (fun _ => find) g = .ok im → ∃ t, GreedyMap g t im) :=
  ⟨fun him => let ⟨t, h, _⟩ := (par_disparityMap hs hg hj hfit).of_ok him; ⟨t, h⟩,
    fun hf hconv him => (hf.map hconv hs hg hj hfit).of_ok him⟩

theorem Solved.threshold_eq (hg : g.Fresh) (h : Solved g t c) : c.threshold = t := by
  obtain ⟨p, c0, htab, hc0, k1, -⟩ := h.start
  obtain ⟨c0', hc0', -, -, -, -, a5, -⟩ := start_mk hg htab t
  rw [hc0] at hc0'
  cases hc0'
  rw [k1.2.2, a5]

theorem Solved.consistent_iff (hg : g.Fresh) (h : Solved g t c) {L : Nat → Nat → Nat} :
    Consistent c.w c.h c.E c.Av L ↔ g.FeasibleAt t L := by
  obtain ⟨p, c0, htab, hc0, k1, k3⟩ := h.start
  obtain ⟨c0', hc0', a1, a2, a3, a4, a5, -, a7⟩ := start_mk hg htab t
  rw [hc0] at hc0'
  cases hc0'
  rw [← feasible_iff_consistent hg a3 a4 a5 a7, k1.E_eq, k1.w_eq, k1.h_eq]
  constructor
  · exact fun hL x y hx hy => ⟨k3 _ _ _ (hL x y hx hy).1, (hL x y hx hy).2⟩
  · intro hL x y hx hy
    have := h.keeps L ((feasible_iff_consistent hg a3 a4 a5 a7).1 hL)
    rw [← h.w_eq, ← h.h_eq, k1.w_eq, k1.h_eq] at this
    exact ⟨this _ _ _ ⟨hx, hy, rfl⟩, (hL x y hx hy).2⟩

/-- Conversely, a device with a single work group finds such a map, unless its work items miss each other at a barrier. The only other
condition is that of the first pixel, where the best node is chosen before anything is removed by the device. -/
theorem C82_one_group_partial (hf : Finder conv allowed find) (hconv : Faithful conv) (hone : OneGroup allowed)
    (hs : solve.Possible B jobs) (hg : g.Fresh) (hj : 0 < jobs.toNat) (hfit : g.h + jobs.toNat ≤ 18446744073709551616) {n : Nat}
    (hsol : Par.solvedGraph solve g = .ok (c, n)) {im : Image} :
    (Par.labeledMap solve (fun _ => find) g = .error .ub ∧ ∃ kernel : Kernel D, IsKernel kernel ∧ Misses kernel allowed .ub) ∨
    (Par.labeledMap solve (fun _ => find) g = .ok im ↔ GreedyMap g c.threshold im ∧
      ∀ d, c.Av 0 0 d → le (g.nodeQ 0 0 (im.at 0 0)) (g.nodeQ 0 0 d) = true ∧
        (d < im.at 0 0 → lt (g.nodeQ 0 0 (im.at 0 0)) (g.nodeQ 0 0 d) = true)) := by
  obtain ⟨t, h1, -⟩ := (par_solvedGraph hs hg hj hfit).of_ok hsol
  simp only at h1
  have hgr := h1.graph_eq hg
  have hnn : ∀ x y d, le zero (c.disparityGraph.nodeQ x y d) = true := by rw [hgr]; exact nodeQ_nonneg hg
  rw [h1.threshold_eq hg]
  have hgood := hf.good hconv h1.valid h1.proper hnn
  unfold Par.labeledMap
  rw [hsol, bind_ok]
  simp only
  cases hfind : find c with
  | error e =>
    rw [hfind] at hgood
    obtain ⟨kernel, hk, hm⟩ := hgood
    obtain rfl := hm.1
    exact .inl ⟨rfl, kernel, hk, hm⟩
  | ok r =>
    right
    rw [hfind] at hgood
    obtain ⟨c2, b2⟩ := r
    obtain ⟨rfl, hl⟩ := hgood
    simp only at hl
    rw [bind_ok]
    simp only [Bool.not_true, Bool.false_eq_true, if_false]
    constructor
    · intro him
      obtain ⟨q1, q2, q3, q4, q5, q6⟩ := (h1.map hg hl).of_ok him
      refine ⟨h1.greedy hg ⟨q1, q2, q3, q4, q5, h1.least⟩ q6, fun d hd => ?_⟩
      have := q6.first d hd
      unfold NotWorse at this
      rwa [hgr] at this
    · rintro ⟨hgm, hfirst⟩
      have hr : Reachable c fun x y => im.at x y := by
        refine ⟨(h1.consistent_iff hg).2 hgm.best.1, fun x y hx hy T hT hall d hd => ?_, fun d hd => ?_⟩
        · have := hgm.greedy T ((h1.keepable T).1 hT) x y (by rw [← h1.w_eq]; exact hx) (by rw [← h1.h_eq]; exact hy) hall d hd
          unfold NotWorse
          rwa [hgr]
        · have := hfirst d hd
          unfold NotWorse
          rwa [hgr]
      have hfol := (hf.follows hconv hone h1.valid h1.proper hnn hr).of_ok hfind
      simp only at hfol
      rcases buildDisparityMap_mk hl.valid (hl.same.proper h1.proper hl.sub) with ⟨-, im', h0, -⟩ | ⟨hno, -⟩
      · obtain ⟨q1, q2, q3, q4, q5, -⟩ := (h1.map hg hl).of_ok h0
        have hb : BestMap g t im' := ⟨q1, q2, q3, q4, q5, h1.least⟩
        rw [h0, (hb.unique hgm.toBestMap).2]
      · refine absurd (fun x y hx hy => ⟨im.at x y, ?_⟩) hno
        rw [hl.same.w_eq] at hx
        rw [hl.same.h_eq] at hy
        rw [hfol]
        exact ⟨hx, hy, rfl⟩

/-- If there are nodes that cannot be excluded by looking at neighbors then there is a feasible labeling. -/
theorem Solved.feasible (hg : g.Fresh) (h : Solved g t c) {T : NodeSet} (hT : Keepable c T) : ∃ L, g.FeasibleAt t L := by
  obtain ⟨p, c0, htab, hc0, k1, -⟩ := h.start
  obtain ⟨c0', hc0', -, -, a3, -⟩ := start_mk hg htab t
  rw [hc0] at hc0'
  cases hc0'
  have hpl := a3.of_same k1
  have hex : ∀ x y, ∃ d, x < c.w → y < c.h → T x y d ∧ ∀ d', T x y d' → d ≤ d' := by
    intro x y
    by_cases hxy : x < c.w ∧ y < c.h
    · classical
      have hne := hT.alive x y hxy.1 hxy.2
      exact ⟨Nat.find hne, fun _ _ => ⟨Nat.find_spec hne, fun d' hd' => Nat.find_min' hne hd'⟩⟩
    · exact ⟨0, fun hx hy => absurd ⟨hx, hy⟩ hxy⟩
  choose L hL using hex
  have hcon := min_labeling hpl.symm hpl.minClosed hT.arc (L := L) hL
  exact ⟨L, (h.consistent_iff hg).1 fun x y hx hy => ⟨hT.sub _ _ _ (hcon x y hx hy).1, (hcon x y hx hy).2⟩⟩

/-- If `solve_csp` changes nothing then all the nodes cannot be excluded by looking at neighbors. -/
theorem Solved.keepable_of_stable (h : Solved g t c) (hfit : g.h + 1 ≤ 18446744073709551616) (h1 : solveCsp 1 c = .ok (c, true)) :
    Keepable c c.Av := by
  have hfit' : c.h + 1 ≤ 18446744073709551616 := by rw [h.h_eq]; exact hfit
  obtain ⟨r, hr, -, -, q⟩ := solveCsp_mk h.valid h.proper (jobs := 1) (by decide) hfit'
  have : r = (c, true) := by
    have := hr.symm.trans h1
    cases this
    rfl
  subst this
  simp only at q
  rcases q with ⟨q1, q2, -⟩ | ⟨-, -, q⟩
  · rw [← q2] at q1
    exact ⟨Sub.refl _, arc_of_sweep (jobs := 1) (by decide) (fun x y d hd => ⟨hd.1, hd.2.1⟩) q2.symm, q1⟩
  · cases q

/-- The choice of the best node in the first pixel makes the rest impossible. -/
theorem no_greedyMap (hg : g.Fresh) (h : Solved g t c) (hfit : g.h + 1 ≤ 18446744073709551616) {c2 c3 : ConstraintGraph F}
    (h1 : solveCsp 1 c = .ok (c, true)) (h2 : chooseBestNode c ⟨0, 0⟩ = .ok (c2, true)) (h3 : solveCsp 1 c2 = .ok (c3, false))
    {t' : F} {im : Image} : ¬ GreedyMap g t' im := by
  intro hm
  have hfit' : c.h + 1 ≤ 18446744073709551616 := by rw [h.h_eq]; exact hfit
  have hw : 0 < c.w := h.valid.graph.width_pos
  have hh : 0 < c.h := h.valid.graph.height_pos
  have hkeep := h.keepable_of_stable hfit h1
  obtain ⟨L, hL⟩ := h.feasible hg hkeep
  have ht : t = t' := LawfulFloat.le_antisymm _ _ (h.least _ _ hm.best.1) (hm.least _ _ hL)
  subst ht
  have hcon := (h.consistent_iff hg).2 hm.best.1
  have hgr := h.graph_eq hg
  have hkept : Kept c 0 0 (im.at 0 0) := by
    have hnn : ∀ x y d, le zero (c.disparityGraph.nodeQ x y d) = true := by rw [hgr]; exact nodeQ_nonneg hg
    rw [kept_iff_best h.proper fun d _ => hnn 0 0 d, hgr]
    have hgre : ∀ d, c.Av 0 0 d → le (g.nodeQ 0 0 (im.at 0 0)) (g.nodeQ 0 0 d) = true ∧
        (d < im.at 0 0 → lt (g.nodeQ 0 0 (im.at 0 0)) (g.nodeQ 0 0 d) = true) := fun d hd =>
      hm.greedy c.Av ((h.keepable _).1 hkeep) 0 0 (by rw [← h.w_eq]; exact hw) (by rw [← h.h_eq]; exact hh)
        (fun x' y' d' hb _ => by omega) d hd
    exact ⟨(hcon 0 0 hw hh).1, fun d hd => (hgre d hd).1, fun d hlt hd => (hgre d hd).2 hlt⟩
  obtain ⟨r, hr, k1, k2, k3, -⟩ := chooseBestNode_mk h.valid h.proper (x := 0) (y := 0) hw hh
  have hpx : mkPixel 0 0 = ⟨0, 0⟩ := rfl
  rw [hpx, h2] at hr
  cases hr
  simp only at k1 k2 k3
  obtain ⟨r', hr', q⟩ := C28_unsolvable_correct k2 (k1.proper h.proper fun x y d hd => ((k3 x y d).1 hd).1) (jobs := 1) (by decide)
    (by rw [k1.h_eq]; exact hfit')
  have : r' = (c3, false) := by
    have := hr'.symm.trans h3
    cases this
    rfl
  subst this
  refine (q rfl).1 ⟨fun x y => im.at x y, ?_⟩
  rw [k1.w_eq, k1.h_eq, k1.E_eq]
  intro x y hx hy
  refine ⟨(k3 _ _ _).2 ⟨(hcon x y hx hy).1, ?_⟩, (hcon x y hx hy).2⟩
  rintro ⟨rfl, rfl⟩
  exact hkept

end

set_option maxRecDepth 1000000

/-! ## Images without a map -/

def noMapGraph : DisparityGraph Int :=
  freshGraph (img 5 2 4 [0, 3, 4, 4, 3, 2, 2, 1, 1, 2]) (img 5 2 4 [4, 0, 3, 4, 3, 4, 4, 0, 0, 4]) 5 1 3

theorem noMapGraph_fresh : noMapGraph.Fresh := by
  refine freshGraph_fresh ⟨rfl, by decide⟩ ⟨rfl, by decide⟩ (accepted_of ?_ ?_ ?_ ?_ ?_ ?_ ?_ rfl rfl rfl ?_ ?_ ?_) ?_ <;> decide

/-- The graph after `solve_csp`. -/
def noMapSolved : ConstraintGraph Int :=
  { disparityGraph := noMapGraph
    lowestPenalties := { graph := noMapGraph, pixels := #[0, 9, 0, 0, 0, 4, 4, 1, 1, 4], neighborhoods := Array.replicate 40 0 }
    nodesAvailability := #[false, true, true, true, true, true, true, false, false, true, true, false, false, true, false, true, false,
      false, true, false, true, true, true, false, false, true, true, true, false, false, true, true, false, false, false, true, true,
      false, false, false, true, false, false, false, false, true, false, false, false, false]
    threshold := 3 }

theorem noMapSolved_eq : (solvedGraph 1 noMapGraph).toOption = some noMapSolved := by decide +kernel

/-- The node `2` is chosen in the first pixel. -/
def noMapChosen : ConstraintGraph Int :=
  { noMapSolved with nodesAvailability := ((noMapSolved.nodesAvailability.set! 1 false).set! 3 false).set! 4 false }

theorem noMap_stable : (solveCsp 1 noMapSolved).toOption = some (noMapSolved, true) := by decide +kernel
theorem noMap_chosen : (chooseBestNode noMapSolved ⟨0, 0⟩).toOption = some (noMapChosen, true) := by decide +kernel
theorem noMap_unsolvable : (solveCsp 1 noMapChosen).toOption = some ({ noMapSolved with nodesAvailability := .replicate 50 false }, false) := by
  decide +kernel

theorem ok_of_toOption {α : Type} {m : M α} {a : α} (h : m.toOption = some a) : m = .ok a := by
  cases m with
  | error e => cases h
  | ok b => cases h; rfl

/-- **C82** is false: for these accepted images, with `5` levels, no map is found by the processor with any number of threads, nor by a
device, whatever the schedule and the work groups. The labelings feasible at the least threshold `3` do not take the node `2` in the
first pixel, but this node is chosen there: it has the lowest penalty, and it cannot be excluded by looking at neighbors. -/
theorem C82_some_technology_refuted : noMapGraph.Fresh ∧ ∃ L, noMapGraph.FeasibleAt 3 L ∧
    ∀ (B : Nat) (jobs : UInt64) (solve : Solver Int), solve.Possible B jobs → 0 < jobs.toNat →
    noMapGraph.h + jobs.toNat ≤ 18446744073709551616 →
      (∀ im, Par.disparityMap solve noMapGraph ≠ .ok im) ∧
      ∀ (D : Type) [FloatOps D] [LawfulFloat D] (conv : Int → D) (allowed : (Nat → Nat) → Prop)
        (find : ConstraintGraph Int → M (ConstraintGraph Int × Bool)), Finder conv allowed find → Faithful conv →
        ∀ im, Par.labeledMap solve (fun _ => find) noMapGraph ≠ .ok im := by
  obtain ⟨t, h⟩ := solved_ok noMapGraph_fresh (by decide) noMapSolved_eq
  have ht : (3 : Int) = t := h.threshold_eq noMapGraph_fresh
  subst ht
  have h1 := ok_of_toOption noMap_stable
  have hno : ∀ t im, ¬ GreedyMap noMapGraph t im := fun t im =>
    no_greedyMap noMapGraph_fresh h (by decide) h1 (ok_of_toOption noMap_chosen) (ok_of_toOption noMap_unsolvable)
  obtain ⟨L, hL⟩ := h.feasible noMapGraph_fresh (h.keepable_of_stable (by decide) h1)
  refine ⟨noMapGraph_fresh, L, hL, fun B jobs solve hs hj hfit => ⟨fun im him => ?_, fun D _ _ conv allowed find hf hconv im him => ?_⟩⟩
  · obtain ⟨t, ht⟩ := (C82_some_technology_partial (conv := (id : Int → Int)) (allowed := fun _ => True) (find := fun c => .ok (c, true))
      hs noMapGraph_fresh hj hfit).1 him
    exact hno t im ht
  · obtain ⟨t, ht⟩ := (C82_some_technology_partial hs noMapGraph_fresh hj hfit).2 hf hconv him
    exact hno t im ht

/-- For other images such a map exists: that found by a device in `C79_gpu_as_cpu_refuted`. -/
example : ∃ t im, GreedyMap bothGraph t im := by
  obtain ⟨hg, -, solve, hs, ⟨launch, hl, im, him⟩, -⟩ := C79_gpu_as_cpu_refuted
  obtain ⟨t, ht⟩ := (C82_some_technology_partial (conv := (id : Int → Int)) hs hg (by decide) (by decide)).2 (.cl launch hl) .id him
  exact ⟨t, im, ht⟩

end SP
