import Verif.Lemmas.ParOne
/-!
# Properties C33 and C65–C71: `solve_csp` executed by several threads

All statements are about any number of workers, any sizes of words in which flags are kept (`B`; 64 for `std::vector<bool>`,
1 for arrays of numbers), any order of loads and stores, and stale loads.
-/
namespace SP
open FloatOps ConstraintGraph

/-! ## C33: workers do not lose solutions -/
section
variable {F : Type} [FloatOps F] {c c' : ConstraintGraph F} {B n : Nat} {jobs : UInt64}

/-- **C33**. At each moment of each execution of a round no value that any word has ever had lacks a node of a consistent
labeling: whatever a worker loads, it finds all of them. No worker fails, and none of them reports a change. -/
theorem C33_nodes_stay (hc : c.Valid) (hp : c.Proper) (hj : 0 < jobs.toNat)
    (hfit : c.h + jobs.toNat ≤ 18446744073709551616) (hn : n ≤ 18446744073709551616) {P : Pool Bool}
    (hs : Steps false (fun _ => 0) n (roundStart B jobs c) P) {L : Nat → Nat → Nat}
    (hL : Consistent c.w c.h c.E c.Av L) :
    (∀ x y, x < c.w → y < c.h → ∀ v ∈ P.mem (nidx c.h c.levels x y (L x y) / B),
      v (nidx c.h c.levels x y (L x y)) = true) ∧
    (∀ i, i < n → ∀ e, P.prog i ≠ .fail e) ∧
    ∀ i, i < n → ∀ b, P.prog i = .ret b → b = false := by
  have harc := hL.arc fun x y k hk => ⟨hk.nbx_lt, hk.nby_lt⟩
  have hal : AllAlive c.w c.h (labelingNodes c.w c.h L) := fun x y hx hy => ⟨L x y, hx, hy, rfl⟩
  have h1 := round_above hc hj hfit hn hp hL.sub harc hal hs
  refine ⟨fun x y hx hy v hv => ?_, fun i hi e => (round_below hc hj hfit hn hs).2 i e hi, fun i hi b => h1.2 i b hi⟩
  obtain ⟨t, ht⟩ := List.mem_iff_getElem?.1 hv
  exact h1.1 _ t v ht x y (L x y) ⟨hx, hy, rfl⟩ rfl

/-- **C33** for the whole of `solve_csp`: with any number of threads the result is `true` and has all nodes of all consistent
labelings, whenever there is one. If the result is `false`, there are none. Nodes are never added. -/
theorem C33_solutions_kept (hc : c.Valid) (hp : c.Proper) (hj : 0 < jobs.toNat)
    (hfit : c.h + jobs.toNat ≤ 18446744073709551616) {solved : Bool} (h : SolveTo B jobs c c' solved) :
    c.Same c' ∧ Sub c'.Av c.Av ∧
    (∀ L, Consistent c.w c.h c.E c.Av L → solved = true ∧ Consistent c.w c.h c.E c'.Av L) ∧
    (solved = false → (∀ x y d, ¬ c'.Av x y d) ∧ ¬ ∃ L, Consistent c.w c.h c.E c.Av L) := by
  obtain ⟨h1, h2, h3⟩ := h.basic hc hj hfit
  have key : ∀ L, Consistent c.w c.h c.E c.Av L → solved = true ∧ Consistent c.w c.h c.E c'.Av L := by
    intro L hL
    have harc := hL.arc fun x y k hk => ⟨hk.nbx_lt, hk.nby_lt⟩
    have hal : AllAlive c.w c.h (labelingNodes c.w c.h L) := fun x y hx hy => ⟨L x y, hx, hy, rfl⟩
    obtain ⟨h4, h5⟩ := h.keeps hc hj hfit hp hL.sub harc hal
    exact ⟨h4, hL.mono (fun _ _ _ _ _ h => h) h5⟩
  refine ⟨h1, h3, key, fun hs => ⟨fun x y d hd => ?_, ?_⟩⟩
  · have := (h.solved_iff hc hj hfit).2 ⟨x, y, d, hd⟩
    rw [hs] at this
    cases this
  · rintro ⟨L, hL⟩
    have := (key L hL).1
    rw [hs] at this
    cases this

/-- Executions are finite, and as long as some worker has not returned some step is possible. -/
theorem C33_rounds_finite (hc : c.Valid) (hj : 0 < jobs.toNat)
    (hfit : c.h + jobs.toNat ≤ 18446744073709551616) (hn : n ≤ 18446744073709551616) :
    (WellFounded fun Q P : Pool Bool => Step false (fun _ => 0) n P Q) ∧
    ∀ P, Steps false (fun _ => 0) n (roundStart B jobs c) P →
      (∀ i, i < n → ∃ b, P.prog i = .ret b) ∨ ∃ Q, Step false (fun _ => 0) n P Q :=
  ⟨step_wf, fun _ hs => Pool.progress (hs.ok (Pool.start_ok _ _)) (hs.noBar fun _ _ => cspSolutionIteration_noBar _ _)
    fun i e hi => (round_below hc hj hfit hn hs).2 i e hi⟩

/-! ## C65: a round without effect -/

/-- **C65**. If a round of all workers reports no change and no flag has changed, then the work is done: there are no nodes at all,
or each pixel has a node and each node has an available edge to each neighbor. -/
theorem C65_round_covers (hc : c.Valid) (hp : c.Proper) (hj : 0 < jobs.toNat)
    (hfit : c.h + jobs.toNat ≤ 18446744073709551616) (h : RoundTo B jobs.toNat jobs c c' false) (hsame : c'.Av = c.Av) :
    (∀ x y d, ¬ c.Av x y d) ∨ (AllAlive c.w c.h c.Av ∧ ArcConsistent c.w c.h c.E c.Av) :=
  (h.stable hc hp hj hfit (Nat.le_of_lt (toNat_lt' jobs)) (Nat.le_refl _) (by rw [hsame]; exact Sub.refl _)).symm

/-- Each row belongs to exactly one worker: that whose number is the remainder. -/
theorem C65_rows {h jobs y : Nat} (hj : 0 < jobs) (hy : y < h) :
    ∀ job, (∃ i, i < jobRows h jobs job ∧ y = job + i * jobs) ∧ job < jobs ↔ job = y % jobs := by
  intro job
  constructor
  · rintro ⟨⟨i, -, rfl⟩, h2⟩
    rw [Nat.add_mul_mod_self_right, Nat.mod_eq_of_lt h2]
  · rintro rfl
    refine ⟨⟨y / jobs, ?_, ?_⟩, Nat.mod_lt _ hj⟩
    · rw [jobRows_lt hj, Nat.mul_comm, Nat.mod_add_div]; exact hy
    · rw [Nat.mul_comm, Nat.mod_add_div]

/-! ## C66: termination -/

/-- **C66**, what holds. Full statement: with any number of threads `solve_csp` returns, whatever the schedule. It is false for
`std::vector<bool>` (`C66_terminates_refuted`). Here: if each flag has a word of its own, then the loop `while (changed)`
never goes on forever, and each outcome is a returned value. -/
theorem C66_terminates_partial (hc : c.Valid) (hj : 0 < jobs.toNat) (hfit : c.h + jobs.toNat ≤ 18446744073709551616) :
    ¬ Diverges 1 jobs.toNat jobs c ∧
    ∀ m, SolveOutcome 1 jobs c m → ∃ c' solved, m = .ok (c', solved) ∧ SolveTo 1 jobs c c' solved := by
  have hno := not_diverges (n := jobs.toNat) hc hj hfit (Nat.le_of_lt (toNat_lt' jobs))
  refine ⟨hno, fun m h => ?_⟩
  have := h.valid hc hj hfit
  cases m with
  | error e => exact absurd this.2 hno
  | ok r => exact ⟨r.1, r.2, rfl, this⟩

/-- For words of any size: the loop goes on forever, or a value is returned; and each call has some outcome. -/
theorem C66_outcomes_partial (hc : c.Valid) (hj : 0 < jobs.toNat) (hfit : c.h + jobs.toNat ≤ 18446744073709551616) :
    (∃ m, SolveOutcome B jobs c m) ∧
    ∀ m, SolveOutcome B jobs c m → (m = .error .nonterm ∧ Diverges B jobs.toNat jobs c) ∨
      ∃ c' solved, m = .ok (c', solved) ∧ SolveTo B jobs c c' solved := by
  refine ⟨SolveOutcome.exists B jobs c, fun m h => ?_⟩
  have := h.valid hc hj hfit
  cases m with
  | error e => exact .inl ⟨by rw [this.1], this.2⟩
  | ok r => exact .inr ⟨r.1, r.2, rfl, this⟩

/-! ## C71: one thread -/

/-- **C71**. With one thread the only outcome of `solve_csp` is that of the sequential model. -/
theorem C71_one_thread (hc : c.Valid) (hp : c.Proper) (hfit : c.h + 1 ≤ 18446744073709551616)
    {m : M (ConstraintGraph F × Bool)} : SolveOutcome B 1 c m ↔ m = solveCsp 1 c :=
  SolveOutcome.one hc hp hfit

/-- With any number of threads the result of executing workers one after another, in any order, is a possible one. -/
theorem C71_any_order {l : List Nat} (hl : l.Nodup) (hn : ∀ i, i ∈ l ↔ i < jobs.toNat) {solved : Bool}
    (h : solveInOrder jobs l c = .ok (c', solved)) : SolveTo B jobs c c' solved :=
  .of_order hl hn h

/-- With any number of threads the result of the sequential model is a possible one. -/
theorem C71_sequential_possible {solved : Bool} (h : solveCsp jobs c = .ok (c', solved)) : SolveTo B jobs c c' solved :=
  .of_seq h

/-- The model of the whole computation with the results of the sequential `solve_csp` is the sequential model. -/
theorem C71_whole (g : DisparityGraph F) : Par.disparityMap (fun _ => solveCsp jobs) g = disparityMap jobs g :=
  par_disparityMap_seq g

/-! ## C69, C70: the whole computation -/
section
variable {solve : Solver F}

/-- **C69**. Whatever happens in the calls of `solve_csp`, if a disparity map is produced, then it has the size of the images and is
a labeling feasible at the found threshold, and no labeling is feasible at a smaller one. In particular each value is below
the number of levels and points inside the left image, and matching columns of a row do not go backwards. -/
theorem C69_map_consistent_optimal [LawfulFloat F] {g : DisparityGraph F} (hs : solve.Possible B jobs) (hg : g.Fresh)
    (hj : 0 < jobs.toNat) (hfit : g.h + jobs.toNat ≤ 18446744073709551616) {im : Image}
    (him : Par.disparityMap solve g = .ok im) :
    im.width = g.right.width ∧ im.height = g.right.height ∧ im.maxValue = g.disparityLevels ∧
    im.data.size = g.w * g.h ∧
    (∃ t, (∃ r, Par.minimalThreshold solve g = .ok r ∧ r.2.1 = t) ∧ g.FeasibleAt t (fun x y => im.at x y) ∧
      ∀ t' L, g.FeasibleAt t' L → le t t' = true) ∧
    (∀ x y, x < g.w → y < g.h → im.at x y < g.levels ∧ x + im.at x y < g.w) ∧
    (∀ x y, x + 1 < g.w → y < g.h → x + im.at x y ≤ x + 1 + im.at (x + 1) y) := by
  obtain ⟨t, ⟨⟨h1, h2, h3, h4, ⟨hfeas, -⟩, h7⟩, -⟩, h6⟩ := (par_disparityMap hs hg hj hfit).of_ok him
  refine ⟨h1, h2, h3, h4, ⟨t, ?_, hfeas, h7⟩, fun x y hx hy => ?_, fun x y hx hy => ?_⟩
  · cases hm : Par.minimalThreshold solve g with
    | error e => rw [hm] at h6; exact h6.elim
    | ok r => rw [hm] at h6; exact ⟨r, rfl, h6⟩
  · have hn := (hfeas x y hx hy).1
    exact ⟨hn.2.2.1, hn.2.2.2⟩
  · have hk : HasNb g.w g.h x y 0 := ⟨by omega, hy, .inl ⟨rfl, hx⟩⟩
    have he := ((hfeas x y (by omega) hy).2.2 0 hk).1
    have ho : im.at x y ≤ im.at (x + 1) y + 1 := he.2.2.2.1 rfl
    omega

/-- **C80**. Whatever happens in the calls of `solve_csp`, if a disparity map is produced, then it is the best of the labelings feasible
at the least threshold. -/
theorem C80_best_map [LawfulFloat F] {g : DisparityGraph F} (hs : solve.Possible B jobs) (hg : g.Fresh)
    (hj : 0 < jobs.toNat) (hfit : g.h + jobs.toNat ≤ 18446744073709551616) {im : Image}
    (him : Par.disparityMap solve g = .ok im) : ∃ t, BestMap g t im :=
  let ⟨t, h, _⟩ := (par_disparityMap hs hg hj hfit).of_ok him
  ⟨t, h.toBestMap⟩

/-- Whatever the numbers of threads and their schedules in two executions, if both of them produce a map then the maps are the same. -/
theorem C80_same_map [LawfulFloat F] {g : DisparityGraph F} {B' : Nat} {jobs' : UInt64} {solve' : Solver F}
    (hs : solve.Possible B jobs) (hs' : solve'.Possible B' jobs') (hg : g.Fresh) (hj : 0 < jobs.toNat) (hj' : 0 < jobs'.toNat)
    (hfit : g.h + jobs.toNat ≤ 18446744073709551616) (hfit' : g.h + jobs'.toNat ≤ 18446744073709551616) {im im' : Image}
    (him : Par.disparityMap solve g = .ok im) (him' : Par.disparityMap solve' g = .ok im') : im = im' :=
  let ⟨_, h⟩ := C80_best_map hs hg hj hfit him
  let ⟨_, h'⟩ := C80_best_map hs' hg hj' hfit' him'
  (h.unique h').2

/-- The same for the sequential model. -/
theorem C80_sequential [LawfulFloat F] {g : DisparityGraph F} (hg : g.Fresh) (hj : 0 < jobs.toNat)
    (hfit : g.h + jobs.toNat ≤ 18446744073709551616) {im : Image} (him : disparityMap jobs g = .ok im) :
    ∃ t, BestMap g t im := by
  obtain ⟨solve, h1, h2⟩ := Solver.Possible.seq (F := F) 64 jobs
  rw [← C71_whole] at him
  rcases refines_disparityMap h2 g with ⟨e, -, h⟩ | h
  · rw [him] at h
    cases h
  · exact C80_best_map h1 hg hj hfit (h.trans him)

/-- A map produced with any number of threads and any schedule is the map of the sequential model, if that produces a map. -/
theorem C80_same_as_sequential [LawfulFloat F] {g : DisparityGraph F} {jobs' : UInt64} (hs : solve.Possible B jobs) (hg : g.Fresh)
    (hj : 0 < jobs.toNat) (hj' : 0 < jobs'.toNat) (hfit : g.h + jobs.toNat ≤ 18446744073709551616)
    (hfit' : g.h + jobs'.toNat ≤ 18446744073709551616) {im im' : Image}
    (him : Par.disparityMap solve g = .ok im) (him' : disparityMap jobs' g = .ok im') : im = im' :=
  let ⟨_, h⟩ := C80_best_map hs hg hj hfit him
  let ⟨_, h'⟩ := C80_sequential hg hj' hfit' him'
  (h.unique h').2

/-- **C70**. Whatever the schedule, the computation never reads or writes outside of arrays: it gives a map, ends with
`std::logic_error`, or goes on forever. If each flag has a word of its own, or there is one thread, then it does not go on
forever. -/
theorem C70_memory_safe [LawfulFloat F] {g : DisparityGraph F} (hs : solve.Possible B jobs) (hg : g.Fresh)
    (hj : 0 < jobs.toNat) (hfit : g.h + jobs.toNat ≤ 18446744073709551616) :
    (∃ im, Par.disparityMap solve g = .ok im) ∨ (∃ what, Par.disparityMap solve g = .error (.exc (.logicError what))) ∨
    (Par.disparityMap solve g = .error .nonterm ∧ B ≠ 1 ∧ jobs ≠ 1) := by
  have h := par_disparityMap hs hg hj hfit
  cases hm : Par.disparityMap solve g with
  | ok im => exact .inl ⟨im, rfl⟩
  | error e =>
    rw [hm] at h
    rcases h with h | ⟨what, h⟩
    · exact .inr (.inr ⟨by rw [h.1], h.2.1⟩)
    · exact .inr (.inl ⟨what, by rw [h]⟩)

/-- The found threshold is never above the least feasible one, and the number of calls is logarithmic. -/
theorem C69_threshold_below [LawfulFloat F] {g : DisparityGraph F} (hs : solve.Possible B jobs) (hg : g.Fresh)
    (hj : 0 < jobs.toNat) (hfit : g.h + jobs.toNat ≤ 18446744073709551616) {p : LowestPenalties F} {t : F} {calls : Nat}
    (h : Par.minimalThreshold solve g = .ok (p, t, calls)) :
    (∀ t' L, g.FeasibleAt t' L → le t t' = true) ∧ t ∈ p.fetch ∧ ∀ k, p.fetch.length ≤ 2 ^ k → calls ≤ k := by
  obtain ⟨-, h2, h3, h4⟩ := (par_minimalThreshold hs hg hj hfit).of_ok h
  refine ⟨fun t' L hL => ?_, h2, h4⟩
  cases hle : le t t'
  · exact absurd ⟨L, hL⟩ (h3 t' ((LawfulFloat.lt_iff _ _).2 hle))
  · rfl

end
end

/-! ## Concrete executions -/

/-- Images of size 4 × 2 with four disparity levels. -/
def raceGraph : DisparityGraph Int :=
  freshGraph (img 4 2 5 [2, 4, 0, 3, 1, 5, 5, 2]) (img 4 2 5 [3, 1, 0, 4, 2, 0, 4, 0]) 4 1 2

theorem raceGraph_fresh : raceGraph.Fresh := by
  refine freshGraph_fresh ⟨rfl, by decide⟩ ⟨rfl, by decide⟩ (accepted_of ?_ ?_ ?_ ?_ ?_ ?_ ?_ rfl rfl rfl ?_ ?_ ?_)
    ?_ <;> decide

/-- The constraint graph at threshold `3`. -/
def raceStart : ConstraintGraph Int := startOf raceGraph 3

theorem raceStart_ok : raceStart.Valid ∧ raceStart.Proper :=
  let h := (pipeline_start raceGraph_fresh 3).okD (noGraph raceGraph)
  ⟨h.1, h.2.1⟩

/-- Non-vacuity of C33: an execution with two threads for a graph that has a consistent labeling. -/
example : SolveTo 64 2 (startOf niceGraph 1) (okD (startOf niceGraph 1, false) (solveInOrder 2 [1, 0] (startOf niceGraph 1))).1
    true := by
  refine C71_any_order (l := [1, 0]) (by decide) (by intro i; simp; omega) ?_
  have h : (solveInOrder 2 [1, 0] (startOf niceGraph 1)).toOption.map (·.2) = some true := by decide +kernel
  cases hr : solveInOrder 2 [1, 0] (startOf niceGraph 1) with
  | error e => rw [hr] at h; simp [Except.toOption] at h
  | ok r =>
    rw [hr] at h
    simp only [Except.toOption, Option.map_some, Option.some.injEq] at h
    rw [← h]
    rfl

/-- **C67** is false: with two threads, whether the graph is found solvable depends on which of them is faster. Here one of them
does all its work before the other begins. -/
theorem C67_schedule_independent_refuted :
    ∃ c c' : ConstraintGraph Int, SolveTo 64 2 raceStart c true ∧ SolveTo 64 2 raceStart c' false := by
  have h1 : (solveInOrder 2 [0, 1] raceStart).toOption.map (·.2) = some true := by decide +kernel
  have h2 : (solveInOrder 2 [1, 0] raceStart).toOption.map (·.2) = some false := by decide +kernel
  have get : ∀ {l : List Nat} {b : Bool}, (solveInOrder 2 l raceStart).toOption.map (·.2) = some b →
      ∃ c, solveInOrder 2 l raceStart = .ok (c, b) := by
    intro l b h
    cases hr : solveInOrder 2 l raceStart with
    | error e => rw [hr] at h; simp [Except.toOption] at h
    | ok r =>
      rw [hr] at h
      simp only [Except.toOption, Option.map_some, Option.some.injEq] at h
      exact ⟨r.1, by rw [← h]⟩
  obtain ⟨c, hc⟩ := get h1
  obtain ⟨c', hc'⟩ := get h2
  exact ⟨c, c', C71_any_order (l := [0, 1]) (by decide) (by intro i; simp; omega) hc,
    C71_any_order (l := [1, 0]) (by decide) (by intro i; simp; omega) hc'⟩

section
variable {F : Type} [FloatOps F] {c c' : ConstraintGraph F} {B : Nat} {jobs : UInt64}

/-- **C67**, what holds. Full statement: all executions of `solve_csp` with several threads have the same result. It is false
(`C67_schedule_independent_refuted`). Here: all results are between the largest arc consistent subset and the set in the
beginning, and if that subset has a node in each pixel, the answer is always `true`. -/
theorem C67_schedule_independent_partial (hc : c.Valid) (hp : c.Proper) (hj : 0 < jobs.toNat)
    (hfit : c.h + jobs.toNat ≤ 18446744073709551616) {solved : Bool} (h : SolveTo B jobs c c' solved) :
    Sub c'.Av c.Av ∧ (AllAlive c.w c.h (arcClosure c.w c.h c.E c.Av) →
      solved = true ∧ Sub (arcClosure c.w c.h c.E c.Av) c'.Av) :=
  ⟨(h.basic hc hj hfit).2.2, fun hal => h.keeps hc hj hfit hp arcClosure_sub arcClosure_arc hal⟩

end

/-- **C68** is false: with two threads the program may end with "Cannot solve CSP problem" for accepted images: the graph that was
found solvable in the search for the threshold is not solved once more. -/
theorem C68_found_threshold_solvable_refuted :
    raceGraph.Fresh ∧ ∃ solve : Solver Int, solve.Possible 64 2 ∧
      Par.disparityMap solve raceGraph = .error (.exc (.logicError
        "Cannot solve CSP problem. This should not ever happen. Refer to the developers.")) := by
  refine ⟨raceGraph_fresh, ?_⟩
  obtain ⟨solve, h1, h2⟩ := Solver.Possible.exists (F := Int) 64 2 (fun n => if n < 3 then [0, 1] else [1, 0]) (by
    intro n
    split
    · exact ⟨by decide, by intro i; simp; omega⟩
    · exact ⟨by decide, by intro i; simp; omega⟩)
  refine ⟨solve, h1, ?_⟩
  have h3 : (match Par.disparityMap (orderSolver 2 fun n => if n < 3 then [0, 1] else [1, 0]) raceGraph with
      | .ok _ => false
      | .error e => e == .exc (.logicError
        "Cannot solve CSP problem. This should not ever happen. Refer to the developers.")) = true := by decide +kernel
  rcases refines_disparityMap h2 raceGraph with ⟨e, rfl, h⟩ | h
  · rw [h] at h3; cases h3
  · rw [h]
    split at h3
    · cases h3
    · rename_i e he
      rw [he]
      rw [beq_iff_eq] at h3
      rw [h3]

/-! ### Going on forever -/

/-- Images of size 2 × 2 with two disparity levels. -/
def loopGraph : DisparityGraph Int := freshGraph (img 2 2 5 [5, 0, 5, 0]) (img 2 2 5 [0, 0, 0, 0]) 2 1 1

theorem loopGraph_fresh : loopGraph.Fresh := by
  refine freshGraph_fresh ⟨rfl, by decide⟩ ⟨rfl, by decide⟩ (accepted_of ?_ ?_ ?_ ?_ ?_ ?_ ?_ rfl rfl rfl ?_ ?_ ?_)
    ?_ <;> decide

/-- The constraint graph at threshold `0`. -/
def loopStart : ConstraintGraph Int := startOf loopGraph 0

/-- The same graph with two nodes left. -/
def loopNext : ConstraintGraph Int := loopStart.withFlags fun i => i == 4 || i == 6

/-- Turns of two workers in the first round. Both find a pixel without nodes and begin to make all nodes unavailable. The
first one loads the word and waits; the second one clears all flags but the last; the first one stores the word it has, the
second one loads it, and stores it when the first one is ready. -/
def loopTurns : List (Nat × Nat) := [(0, 4), (1, 4), (0, 8), (1, 21), (0, 1), (1, 1), (0, 100), (1, 100)]

/-- Turns in the next rounds. -/
def loopTurns' : List (Nat × Nat) := [(0, 10), (1, 23), (0, 1), (1, 1), (0, 100), (1, 100)]

/-- What is to be computed. -/
def endsWith {F : Type} [FloatOps F] (c : ConstraintGraph F) (turns : List (Nat × Nat)) (a : Array Bool) : Bool :=
  let r := play turns (roundStart 64 2 c).prog fun _ => flagsOf c.nodesAvailability
  ((r.1 0).value == some true) && ((r.1 1).value == some true) &&
    decide (a.size = c.nodesAvailability.size) &&
    (List.range c.nodesAvailability.size).all fun i => r.2 (i / 64) i == a.getD i false

theorem round_of_endsWith {F : Type} [FloatOps F] {c : ConstraintGraph F} {turns : List (Nat × Nat)} {a : Array Bool}
    (ht : turns.all (fun t => decide (t.1 < 2))) (h : endsWith c turns a = true) :
    RoundTo 64 2 2 c { c with nodesAvailability := a } true := by
  unfold endsWith at h
  simp only [Bool.and_eq_true, beq_iff_eq, decide_eq_true_eq, List.all_eq_true, List.mem_range] at h
  obtain ⟨⟨⟨h1, h2⟩, h3⟩, h4⟩ := h
  refine RoundTo.of_play turns (fun t ht' => by simpa using List.all_eq_true.1 ht t ht') (fun _ => true) ?_ ?_ ?_
  · intro i hi
    rcases (show i = 0 ∨ i = 1 by omega) with rfl | rfl
    · exact h1
    · exact h2
  · simp only [and_true, true_iff]
    exact ⟨0, by omega⟩
  · unfold withFlags
    congr 1
    apply Array.ext
    · simp [h3]
    · intro i hi1 hi2
      simp only [Array.getElem_ofFn]
      rw [h4 i (by omega)]
      simp [Array.getD, hi1]

/-- **C66** is false: for accepted images and some threshold two threads never leave the loop `while (changed)`. In each round both
of them find a pixel without nodes and make all nodes unavailable, but since 64 flags share a word, each one brings
back the flags cleared by the other one. -/
theorem C66_terminates_refuted :
    loopGraph.Fresh ∧ loopStart.Valid ∧ Diverges 64 2 2 loopStart ∧ SolveOutcome 64 2 loopStart (.error .nonterm) := by
  have h1 : endsWith loopStart loopTurns loopNext.nodesAvailability = true := by decide +kernel
  have h2 : endsWith loopNext loopTurns' loopNext.nodesAvailability = true := by decide +kernel
  have hd : Diverges 64 2 2 loopStart := by
    refine ⟨fun k => if k = 0 then loopStart else loopNext, rfl, fun k => ?_⟩
    by_cases hk : k = 0
    · subst hk
      exact round_of_endsWith (by decide) h1
    · simp only [if_neg hk, Nat.add_eq_zero_iff, Nat.one_ne_zero, and_false, if_false]
      exact round_of_endsWith (by decide) h2
  exact ⟨loopGraph_fresh, ((pipeline_start loopGraph_fresh 0).okD (noGraph loopGraph)).1, hd, .inl ⟨rfl, hd⟩⟩

/-! ### The bound of the loop over workers

According to OpenMP `parallel for` is `parallel` with `for` inside of it, so that the bound `THREADS_NUMBER` is evaluated by the
threads of the inner region; this is `n = jobs` in the model. If it were evaluated before the region, in the outer one that
has one thread, it would be `1` while the body of the loop would still get the number of threads of the inner region. -/

/-- Images of size 3 × 2 with two disparity levels. -/
def rowGraph : DisparityGraph Int := freshGraph (img 3 2 3 [1, 2, 3, 1, 1, 2]) (img 3 2 3 [1, 1, 0, 0, 0, 3]) 2 1 1

theorem rowGraph_fresh : rowGraph.Fresh := by
  refine freshGraph_fresh ⟨rfl, by decide⟩ ⟨rfl, by decide⟩ (accepted_of ?_ ?_ ?_ ?_ ?_ ?_ ?_ rfl rfl rfl ?_ ?_ ?_)
    ?_ <;> decide

/-- The constraint graph at threshold `0`. -/
def rowStart : ConstraintGraph Int := startOf rowGraph 0

/-- If there is one worker of two then some rows are not processed: a round reports no change and makes none although a node has
to be removed. -/
theorem C65_outside_bound_misses_rows : rowStart.Valid ∧ rowStart.Proper ∧
    (∃ c', RoundTo 64 1 2 rowStart c' false ∧ c'.Av = rowStart.Av) ∧
    rowStart.Av 0 1 1 ∧ shouldRemoveNode rowStart (mkNode 0 1 1) = .ok true := by
  have h := (pipeline_start rowGraph_fresh 0).okD (noGraph rowGraph)
  have h1 : (runOrder 2 [0] rowStart).toOption.map (fun r => (r.1.nodesAvailability, r.2))
      = some (rowStart.nodesAvailability, false) := by decide +kernel
  refine ⟨h.1, h.2.1, ?_, ⟨by decide, by decide, by decide, by decide +kernel⟩, ?_⟩
  · cases hr : runOrder 2 [0] rowStart with
    | error e => rw [hr] at h1; simp [Except.toOption] at h1
    | ok r =>
      rw [hr] at h1
      simp only [Except.toOption, Option.map_some, Option.some.injEq, Prod.mk.injEq] at h1
      have hto : RoundTo 64 1 2 rowStart r.1 false := RoundTo.one.2 (by rw [hr, ← h1.2])
      refine ⟨r.1, hto, ?_⟩
      have hsame := (hto.basic h.1 (by decide) (by decide) (by decide)).1
      unfold ConstraintGraph.Av
      rw [h1.1, hsame.w_eq, hsame.h_eq, hsame.levels_eq]
  · have h2 : (shouldRemoveNode rowStart (mkNode 0 1 1)).toOption = some true := by decide +kernel
    cases hr : shouldRemoveNode rowStart (mkNode 0 1 1) with
    | error e => rw [hr] at h2; simp [Except.toOption] at h2
    | ok r =>
      rw [hr] at h2
      simp only [Except.toOption, Option.some.injEq] at h2
      rw [h2]

end SP
