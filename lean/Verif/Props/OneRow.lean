import Verif.Lemmas.RowCode
import Verif.Props.Greedy
import Verif.Props.Races
/-!
# C95, C96: images of one row

For images of one row several claims hold that are false in general: the speed of threads does not matter, `solve_csp` decides
whether there is a labeling, the found threshold is the least feasible one. It is known exactly for which images of one row a map is found.
-/
set_option linter.unusedSectionVars false

namespace SP
open FloatOps ConstraintGraph Gpu

section
variable {F : Type} [FloatOps F] {c : ConstraintGraph F} {B : Nat} {jobs : UInt64}

/-- **C95**, threads. For images of one row there is exactly one outcome of a call of `solve_csp`, whatever the number of threads and
their speed, and also when a data race counts as undefined behaviour: there are none. It does not depend on the number of threads. -/
theorem C95_one_outcome (hc : c.Valid) (hp : c.Proper) (h1 : c.h = 1) (hj : 0 < jobs.toNat)
    (hfit : c.h + jobs.toNat ≤ 18446744073709551616) {m : M (ConstraintGraph F × Bool)} :
    (SolveOutcome B jobs c m ↔ m = solveCsp 1 c) ∧ (SolveOutcomeStd B jobs c m ↔ m = solveCsp 1 c) := by
  have key : SolveOutcome B jobs c m ↔ m = solveCsp 1 c := by
    rw [SolveOutcome.oneRow hc hp h1 hj hfit, solveCsp_jobs hc hp h1 hj hfit]
  refine ⟨key, ?_⟩
  rw [← key]
  refine ⟨?_, .inl⟩
  rintro (h | ⟨-, c', P, i, j, w, h2, h3, h4⟩)
  · exact h
  · obtain ⟨a1, -⟩ := h2.basic hc hj hfit (Nat.le_of_lt (toNat_lt' jobs))
    have := (C83_one_row_partial h3 h4).2.2.2
    rw [a1.h_eq, h1] at this
    omega

/-- So the whole computation has one outcome as well. -/
theorem C95_threads [LawfulFloat F] {g : DisparityGraph F} {solve : Solver F} (hs : solve.PossibleStd B jobs) (hg : g.Fresh) (h1 : g.h = 1)
    (hj : 0 < jobs.toNat) (hfit : g.h + jobs.toNat ≤ 18446744073709551616) : Par.disparityMap solve g = disparityMap 1 g := by
  refine par_disparityMap_row (B := B) hg h1 hj hfit fun n c hI => ?_
  obtain ⟨rfl, hc, hp⟩ := hI
  exact (C95_one_outcome (B := B) hc hp h1 hj hfit).1.2 ((C95_one_outcome hc hp h1 hj hfit).2.1 (hs n c))

/-- **C95**, labelings. For images of one row `solve_csp` returns `true` if and only if there is a consistent labeling. -/
theorem C95_decides [LawfulFloat F] (hc : c.Valid) (hp : c.Proper) (hpl : c.Plain) (h1 : c.h = 1) (hj : 0 < jobs.toNat)
    (hfit : c.h + jobs.toNat ≤ 18446744073709551616) {m : M (ConstraintGraph F × Bool)} (h : SolveOutcome B jobs c m) :
    ∃ c' solved, m = .ok (c', solved) ∧ (solved = true ↔ ∃ L, Consistent c.w c.h c.E c.Av L) := by
  have hsym : EdgeSymm c.w 1 c.E := h1 ▸ hpl.symm
  obtain ⟨⟨c', b⟩, hr, -, -, -, a4⟩ := solveCsp_row (jobs := 1) hc hp h1 (by decide) (by rw [h1]; decide)
  refine ⟨c', b, ((C95_one_outcome hc hp h1 hj hfit).1.1 h).trans hr, ?_⟩
  rw [h1]
  rcases a4 with ⟨a4, -, rfl⟩ | ⟨a4, -, rfl⟩
  · exact ⟨fun _ => row_labeling hsym hc.graph.width_pos a4, fun _ => rfl⟩
  · refine ⟨fun h => Bool.noConfusion h, ?_⟩
    rintro ⟨L, hL⟩
    refine absurd (fun x y hx hy => ⟨L x y, ?_⟩) a4
    exact sub_sweep (hL.arc fun x y k hk => ⟨hk.nbx_lt, hk.nby_lt⟩) hL.sub _ _ _ _ ⟨hx, hy, rfl⟩

end

section
variable {F D : Type} [FloatOps F] [LawfulFloat F] [FloatOps D] [LawfulFloat D] {conv : F → D} {allowed : (Nat → Nat) → Prop}
  {find : ConstraintGraph F → M (ConstraintGraph F × Bool)} {c : ConstraintGraph F} {g : DisparityGraph F} {B : Nat} {jobs : UInt64}
  {solve : Solver F} {t : F}

/-- The graph for a threshold without reference to the code. -/
theorem start_row (hg : g.Fresh) {p : LowestPenalties F} (hp : Tables g p) (t : F) :
    Ok (mkConstraintGraph g p t) fun c => c.Valid ∧ c.Proper ∧ c.Plain ∧ c.disparityGraph = g ∧ c.w = g.w ∧ c.h = g.h ∧
      c.Av = g.nodesAt t ∧ c.E = g.edgesAt t ∧ ∀ L, Consistent c.w c.h c.E c.Av L ↔ g.FeasibleAt t L := by
  refine (start_mk hg hp t).mono ?_
  rintro c ⟨a1, a2, a3, a4, a5, -, a7⟩
  refine ⟨a1, a2, a3, a4, by unfold ConstraintGraph.w; rw [a4], by unfold ConstraintGraph.h; rw [a4], ?_, ?_,
    fun L => feasible_iff_consistent hg a3 a4 a5 a7⟩
  · funext x y d
    rw [a7]
    exact propext (and_congr_right fun hn => node_iff hg hn)
  · funext x y k d d'
    by_cases hk : HasNb g.w g.h x y k
    · exact propext (edge_iff hg a3 a4 a5 hk)
    · refine propext ⟨fun h => absurd ?_ hk, fun h => absurd h.1.1 hk⟩
      have := h.1.1
      rwa [a4] at this

/-- The sequential search for one row. -/
theorem minimalThreshold_row (hg : g.Fresh) (h1 : g.h = 1) :
    Ok (minimalThreshold 1 g) fun r => Tables g r.1 ∧ (∃ L, g.FeasibleAt r.2 L) ∧ (∀ t' L, g.FeasibleAt t' L → le r.2 t' = true) ∧
      ∃ c0 c, mkConstraintGraph g r.1 r.2 = .ok c0 ∧ solveCsp 1 c0 = .ok (c, true) := by
  have h2 := C39_minimal_threshold_partial hg (jobs := 1) (by decide) (by rw [h1]; decide)
  obtain ⟨⟨p, t⟩, hr, a1, -, a3, -⟩ := minimalThreshold_mk hg (jobs := 1) (by decide) (by rw [h1]; decide)
  have a5 := (h2.res (E := fun _ => False)).of_ok hr
  refine ⟨(p, t), hr, a1, ?_, ?_, ?_⟩
  · obtain ⟨c0, hc0, b1, b2, b3, -, -, b4, -, -, b5⟩ := start_row hg a1 t
    obtain ⟨q, hq, hb⟩ := a3
    simp only at hq
    rw [hc0, bind_ok] at hq
    have hh : c0.h = 1 := b4.trans h1
    obtain ⟨c', s, e1, e2⟩ := C95_decides (B := 1) (jobs := 1) b1 b2 b3 hh (by decide) (by rw [hh]; decide)
      ((C95_one_outcome b1 b2 hh (by decide) (by rw [hh]; decide)).1.2 rfl)
    have e3 := hq.symm.trans e1
    cases e3
    obtain ⟨L, hL⟩ := e2.1 hb
    exact ⟨L, (b5 L).1 hL⟩
  · intro t' L hL
    cases hle : le t t'
    · exact absurd ⟨L, hL⟩ (a5 t' ((LawfulFloat.lt_iff _ _).2 hle))
    · rfl
  · obtain ⟨q, hq, hb⟩ := a3
    obtain ⟨c0, hc0, hq⟩ := bind_eq_ok hq
    obtain ⟨c, b⟩ := q
    simp only at hb
    subst hb
    exact ⟨c0, c, hc0, hq⟩

theorem possible_row (hs : solve.PossibleStd B jobs) (h1 : g.h = 1) (hj : 0 < jobs.toNat)
    (hfit : g.h + jobs.toNat ≤ 18446744073709551616) (n : Nat) (c : ConstraintGraph F) (h : RowGraph g c) :
    SolveOutcome B jobs c (solve n c) := by
  obtain ⟨rfl, hc, hp⟩ := h
  exact (C95_one_outcome (B := B) hc hp h1 hj hfit).1.2 ((C95_one_outcome hc hp h1 hj hfit).2.1 (hs n c))

/-- **C95**, the threshold. For images of one row the found threshold is the least one at which there is a feasible labeling, and the graph for it is found solvable
once more. -/
theorem C95_threshold (hs : solve.PossibleStd B jobs) (hg : g.Fresh) (h1 : g.h = 1) (hj : 0 < jobs.toNat)
    (hfit : g.h + jobs.toNat ≤ 18446744073709551616) :
    ∃ p t calls c, Par.minimalThreshold solve g = .ok (p, t, calls) ∧ (∃ L, g.FeasibleAt t L) ∧
      (∀ t' L, g.FeasibleAt t' L → le t t' = true) ∧ Par.solvedGraph solve g = .ok (c, calls + 1) := by
  have hs' := possible_row (g := g) hs h1 hj hfit
  rw [par_minimalThreshold_row hg h1 hj hfit hs', (par_solvedGraph_row hg h1 hj hfit hs').1]
  obtain ⟨⟨p, t⟩, hr, -, a2, a3, c0, c, hc0, hc⟩ := minimalThreshold_row hg h1
  rw [← par_minimalThreshold_seq] at hr
  obtain ⟨⟨p', t', calls⟩, hr, e⟩ := bind_eq_ok hr
  cases e
  refine ⟨p, t, calls, c, hr, a2, a3, ?_⟩
  unfold Par.solvedGraph
  simp only at hc0
  rw [hr, bind_ok]
  simp only [hc0, bind_ok, hc]
  rfl

/-- The outcome of the sequential computation. -/
theorem disparityMap_row (hg : g.Fresh) (h1 : g.h = 1) :
    (∃ t im, RowMap g t im ∧ disparityMap 1 g = .ok im) ∨
    ((¬ ∃ t im, RowMap g t im) ∧ disparityMap 1 g = .error cannotFind) := by
  obtain ⟨⟨p, t⟩, hr, htab, ⟨L0, hL0⟩, a3, c0, c, hc0, hc⟩ := minimalThreshold_row hg h1
  simp only at htab hL0 a3 hc0
  obtain ⟨c0', hc0', b1, b2, b3, b4, b5, b6, b7, b8, b9⟩ := start_row hg htab t
  rw [hc0] at hc0'
  cases hc0'
  have hh : c0.h = 1 := b6.trans h1
  obtain ⟨q, hq, d1, d2, d3, -⟩ := solveCsp_row (jobs := 1) b1 b2 hh (by decide) (by rw [hh]; decide)
  rw [hc] at hq
  cases hq
  simp only at d1 d2 d3
  have hsol : solvedGraph 1 g = .ok c := by
    unfold solvedGraph
    rw [hr, bind_ok]
    simp only [hc0, bind_ok, hc]
    rfl
  have hlab := findLabeling_row b1 b2 hh (hh ▸ b3.symm) (by rw [b4]; exact nodeQ_nonneg hg) hc
  have hlab2 := findLabeling_mk (jobs := 1) d2 (d1.proper b2 d3) (by decide) (by rw [d1.h_eq, hh]; decide)
  obtain ⟨⟨c', b⟩, hf, hrow⟩ := hlab
  obtain ⟨f1, f2, f3, f4⟩ := (hlab2.res (E := fun _ => False)).of_ok hf
  simp only at hrow f1 f2 f3 f4
  rw [b5, b7, b8, b4] at hrow
  rcases hrow with ⟨rfl, L, g1, g2, g3⟩ | ⟨rfl, g1⟩
  · left
    obtain ⟨k1, k2, k3⟩ := f4 rfl
    rw [d1.w_eq, d1.h_eq, b5, b6] at k1 k2
    rw [d1.E_eq] at k2
    obtain ⟨im, him, m1, m2, m3, m4, m5, m6⟩ := map_of_single hg htab hc0 (d1.trans f1) f2 (f3.trans d3) k1 k2 k3
    have hdm : disparityMap 1 g = .ok im := by
      unfold disparityMap
      rw [hsol, bind_ok, hf, bind_ok]
      exact him
    obtain ⟨t', hb⟩ := C80_sequential hg (jobs := 1) (by decide) (by rw [h1]; decide) hdm
    obtain rfl : t' = t := LawfulFloat.le_antisymm _ _ (hb.least _ _ hL0) (a3 _ _ hb.best.1)
    refine ⟨t', im, ⟨hb, fun x hx => (g2 x hx).congr fun y hy => ?_⟩, hdm⟩
    have := m6 y 0 (by omega) (by omega)
    rw [g3] at this
    exact this.2.2
  · right
    constructor
    · rintro ⟨t', im, hrm⟩
      obtain rfl : t' = t := LawfulFloat.le_antisymm _ _ (hrm.least _ _ hL0) (a3 _ _ hrm.best.1)
      have := (b9 _).2 hrm.best.1
      rw [hh, b5, b7, b8] at this
      exact g1 ⟨_, this, hrm.greedy⟩
    · unfold disparityMap
      rw [hsol, bind_ok, hf, bind_ok]
      rfl

/-- **C96**. For images of one row a map is found if and only if it consists of the best of candidates: in each column of the nodes that
are compatible with the choice in the previous column and can be continued to the right for `x + 1` columns. If there is no such map
then the program says "Cannot find labeling". -/
theorem C96_map_exact (hs : solve.PossibleStd B jobs) (hg : g.Fresh) (h1 : g.h = 1) (hj : 0 < jobs.toNat)
    (hfit : g.h + jobs.toNat ≤ 18446744073709551616) :
    (∀ im, Par.disparityMap solve g = .ok im ↔ ∃ t, RowMap g t im) ∧
    (Par.disparityMap solve g = .error cannotFind ↔ ¬ ∃ t im, RowMap g t im) := by
  rw [C95_threads hs hg h1 hj hfit]
  rcases disparityMap_row hg h1 with ⟨t, im, h, e⟩ | ⟨h, e⟩ <;> rw [e]
  · refine ⟨fun im' => ⟨fun h' => ?_, ?_⟩, ⟨fun h' => (by cases h'), fun h' => absurd ⟨t, im, h⟩ h'⟩⟩
    · cases h'
      exact ⟨t, h⟩
    · rintro ⟨t', h'⟩
      rw [(h.toBestMap.unique h'.toBestMap).2]
  · exact ⟨fun im' => ⟨fun h' => (by cases h'), fun ⟨t', h'⟩ => absurd ⟨t', im', h'⟩ h⟩, ⟨fun _ => h, fun _ => rfl⟩⟩

/-- The best map of a row is found by the choice of the best node in one pixel after another, if everything that can be excluded by looking at
neighbors is removed. -/
theorem BestMap.greedy_row (hg : g.Fresh) (h1 : g.h = 1) {im : Image} (h : BestMap g t im) : GreedyMap g t im where
  toBestMap := h
  greedy T hT x y hx hy hall d hd := by
    obtain rfl : y = 0 := by omega
    obtain ⟨p, -, hp⟩ := tables_mk hg
    obtain ⟨c0, -, -, -, b3, -, b5, b6, b7, b8, b9⟩ := start_row hg hp t
    have hsym := b3.symm
    rw [b5, b6, h1, b8] at hsym
    have harc : ArcConsistent g.w 1 (g.edgesAt t) T := h1 ▸ hT.edge
    obtain ⟨L, hL, rfl⟩ := row_extend hsym harc hx hd
    have hfe : g.FeasibleAt t L := by
      rw [← b9, b5, b6, h1, b7, b8]
      exact fun x y hx hy => ⟨hT.node _ _ _ (hL x y hx hy).1, (hL x y hx hy).2⟩
    refine h.best.2 L hfe x 0 hx hy fun x' y' hx' hy' hb => ?_
    rw [h1] at hy'
    exact hall x' y' _ hb (hL x' y' hx' hy').1

/-- **C96**, a device with a single work group. For images of one row it finds the best map if and only if the node of this map in the first
column is the best of those that have a neighbor; unless its work items miss each other at a barrier. -/
theorem C96_one_group (hf : Finder conv allowed find) (hconv : Faithful conv) (hone : OneGroup allowed)
    (hs : solve.Possible B jobs) (hg : g.Fresh) (h1 : g.h = 1) (hj : 0 < jobs.toNat) (hfit : g.h + jobs.toNat ≤ 18446744073709551616)
    {im : Image} :
    (Par.labeledMap solve (fun _ => find) g = .error .ub ∧ ∃ kernel : Kernel D, IsKernel kernel ∧ Misses kernel allowed .ub) ∨
    (Par.labeledMap solve (fun _ => find) g = .ok im ↔ ∃ t, BestMap g t im ∧
      RowBest g.w (g.edgesAt t) (g.nodesAt t) g.nodeQ (fun x y => im.at x y) 0) := by
  obtain ⟨p, t, calls, c, e1, ⟨L0, hL0⟩, e3, e4⟩ := C95_threshold (B := B) (fun n c => .inl (hs n c)) hg h1 hj hfit
  obtain ⟨t', hsol, htt⟩ := (par_solvedGraph hs hg hj hfit).of_ok e4
  rw [e1] at htt
  obtain rfl : t = t' := htt
  simp only at hsol
  refine (C82_one_group_partial hf hconv hone hs hg hj hfit e4).imp_right fun h => h.trans ?_
  rw [hsol.threshold_eq hg]
  -- the first column after `solve_csp`
  have hfirst : ∀ d, c.Av 0 0 d ↔ RowCandidate g.w (g.edgesAt t) (g.nodesAt t) (fun x y => im.at x y) 0 d := by
    obtain ⟨c0, hc0, b1, b2, b3, b4, b5, b6, b7, b8, -⟩ := start_row hg (par_minimalThreshold_tables hg e1) t
    have hh : c0.h = 1 := b6.trans h1
    have e5 := e4
    unfold Par.solvedGraph at e5
    simp only at hc0
    rw [e1, bind_ok] at e5
    simp only [hc0, bind_ok] at e5
    rw [(RowGraph.solved h1 hj hfit (fun n c _ => hs n c) ⟨b4, b1, b2⟩ calls).1] at e5
    obtain ⟨⟨c', b⟩, hq, -, -, -, d4⟩ := solveCsp_row (jobs := 1) b1 b2 hh (by decide) (by rw [hh]; decide)
    rw [hq, bind_ok] at e5
    cases b
    · cases e5
    · cases e5
      rcases d4 with ⟨-, d5, -⟩ | ⟨-, -, d5⟩
      · intro d
        simp only at d5
        rw [d5, b5, b7, b8, sweep_row]
        unfold RowCandidate
        have hw : 0 < g.w := hg.width_pos
        constructor
        · rintro ⟨q1, q2⟩
          exact ⟨⟨q1, fun h => let ⟨d', a, b⟩ := (q2 hw).2 h; ⟨d', b, a⟩⟩, fun h => absurd h (by omega)⟩
        · rintro ⟨⟨q1, q2⟩, -⟩
          exact ⟨q1, fun _ => ⟨fun h => absurd h (by omega), fun h => let ⟨d', a, b⟩ := q2 h; ⟨d', b, a⟩⟩⟩
      · cases d5
  constructor
  · rintro ⟨q1, q2⟩
    refine ⟨t, q1.toBestMap, ?_, fun d hd => q2 d ((hfirst d).2 hd)⟩
    rw [← hfirst]
    have := hsol.keeps _ q1.best.1
    exact this _ _ _ ⟨hg.width_pos, by omega, rfl⟩
  · rintro ⟨t', q1, q2⟩
    obtain rfl : t' = t := LawfulFloat.le_antisymm _ _ (q1.least _ _ hL0) (e3 _ _ q1.best.1)
    exact ⟨q1.greedy_row hg h1, fun d hd => q2.2 d ((hfirst d).1 hd)⟩

/-- So what the processor finds for images of one row is found by a device with a single work group as well, unless its work items miss
each other at a barrier. -/
theorem C96_device_as_processor (hf : Finder conv allowed find) (hconv : Faithful conv) (hone : OneGroup allowed)
    (hs : solve.Possible B jobs) (hg : g.Fresh) (h1 : g.h = 1) (hj : 0 < jobs.toNat) (hfit : g.h + jobs.toNat ≤ 18446744073709551616)
    {im : Image} (h : Par.disparityMap solve g = .ok im) :
    (Par.labeledMap solve (fun _ => find) g = .error .ub ∧ ∃ kernel : Kernel D, IsKernel kernel ∧ Misses kernel allowed .ub) ∨
    Par.labeledMap solve (fun _ => find) g = .ok im := by
  obtain ⟨t, ht⟩ := ((C96_map_exact (B := B) (fun n c => .inl (hs n c)) hg h1 hj hfit).1 im).1 h
  exact (C96_one_group hf hconv hone hs hg h1 hj hfit).imp_right fun h' => h'.2 ⟨t, ht.toBestMap, ht.greedy 0 hg.width_pos⟩

end

/-! ## Non-vacuity -/

set_option maxRecDepth 1000000

/-- The graph of C42 has one row; there is a labeling for its threshold, and none for the threshold `0`. -/
example : smallStart.Valid ∧ smallStart.Proper ∧ smallStart.Plain ∧ smallStart.h = 1 ∧
    ((solveCsp 1 smallStart).toOption.map (·.2)) = some true ∧ ((solveCsp 1 (startOf smallGraph 0)).toOption.map (·.2)) = some false :=
  ⟨smallStart_ok.1, smallStart_ok.2.1, smallStart_ok.2.2, by decide +kernel, by decide +kernel, by decide +kernel⟩

/-- Images `0 2 1 2` and `0 0 2 1`. -/
def foundGraph : DisparityGraph Int := freshGraph (img 4 1 2 [0, 2, 1, 2]) (img 4 1 2 [0, 0, 2, 1]) 2 1 1

theorem foundGraph_fresh : foundGraph.Fresh := by
  refine freshGraph_fresh ⟨rfl, by decide⟩ ⟨rfl, by decide⟩ (accepted_of ?_ ?_ ?_ ?_ ?_ ?_ ?_ rfl rfl rfl ?_ ?_ ?_) ?_ <;> decide

theorem foundGraph_map : ending (disparityMap 1 foundGraph) = .inr [0, 1, 1, 0] := by decide +kernel

/-- There are images of one row for which a map is found. -/
example : ∃ t im, RowMap foundGraph t im ∧ im.data.toList = [0, 1, 1, 0] := by
  obtain ⟨solve, h1, -⟩ := Solver.Possible.seq (F := Int) 64 1
  obtain ⟨im, him, hd⟩ := ending_ok foundGraph_map
  have h2 : solve.PossibleStd 64 1 := fun n c => .inl (h1 n c)
  rw [← C95_threads h2 foundGraph_fresh rfl (by decide) (by decide)] at him
  obtain ⟨t, ht⟩ := ((C96_map_exact h2 foundGraph_fresh rfl (by decide) (by decide)).1 im).1 him
  exact ⟨t, im, ht, hd⟩

/-- And there are ones for which it is not, those of C42: there is a best map, but it is not the one of the best candidates. -/
example : ¬ ∃ t im, RowMap smallGraph t im := by
  obtain ⟨solve, h1, -⟩ := Solver.Possible.seq (F := Int) 64 1
  have h2 : solve.PossibleStd 64 1 := fun n c => .inl (h1 n c)
  rw [← (C96_map_exact h2 smallGraph_fresh rfl (by decide) (by decide)).2, C95_threads h2 smallGraph_fresh rfl (by decide) (by decide)]
  exact C42_labeling_found_refuted.2.2.2

end SP
