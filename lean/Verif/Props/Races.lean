import Verif.Lemmas.Footprint
import Verif.Props.GpuRefuted
/-!
# C83: data races
-/
set_option linter.unusedSectionVars false

namespace SP
open FloatOps ConstraintGraph Gpu

/-! ## Threads -/
section
variable {F : Type} [FloatOps F] {c c' : ConstraintGraph F} {B : Nat} {jobs : UInt64} {fresh : Bool} {P : Pool Bool} {i j w : Nat}

/-- **C83**, what holds of workers that have something to do. Full statement: in no execution of `solve_csp` by several threads two of them
access the same word at the same time, at least one of them storing it. It is false (`C83_threads_race_refuted`). It holds for one
thread and for images of one row: only workers that have a row access the memory. -/
theorem C83_one_row_partial (hs : Steps fresh (fun _ => 0) jobs.toNat (roundStart B jobs c) P) (h : Race jobs.toNat P i j w) :
    2 ≤ jobs.toNat ∧ i < c.h ∧ j < c.h ∧ 2 ≤ c.h := by
  obtain ⟨hi, hj, hij, hsi, hsj⟩ := h
  have idle : ∀ k, k < jobs.toNat → c.h ≤ k → (P.prog k).Uses (fun _ => False) fun _ => False := by
    intro k hk hck
    refine hs.uses (idle_uses (B := B) (jobs := jobs) (job := UInt64.ofNat k) ?_)
    rw [toNat_ofNat_lt (Nat.lt_trans hk (toNat_lt' jobs))]
    exact hck
  have h1 : i < c.h := by
    by_contra hn
    exact (idle i hi (by omega)).stores hsi
  have h2 : j < c.h := by
    by_contra hn
    rcases hsj with h | h
    · exact (idle j hj (by omega)).loads h
    · exact (idle j hj (by omega)).stores h
  omega

/-- **C83**, what holds if each pixel keeps a node in the largest arc consistent subset of the available nodes: then a worker stores only
words of nodes that belong to its own rows, were available, and are not in that subset. -/
theorem C83_own_rows_partial (hc : c.Valid) (hp : c.Proper) (hj : 0 < jobs.toNat)
    (hfit : c.h + jobs.toNat ≤ 18446744073709551616) (hal : AllAlive c.w c.h (arcClosure c.w c.h c.E c.Av))
    (hs : Steps fresh (fun _ => 0) jobs.toNat (roundStart B jobs c) P) (hi : i < jobs.toNat) (hw : (P.prog i).Stores w) :
    ∃ x y d, y % jobs.toNat = i ∧ c.Av x y d ∧ ¬ arcClosure c.w c.h c.E c.Av x y d ∧ w = c.ix x y d / B := by
  obtain ⟨x, k, d, h1, h2, h3⟩ := round_stores hc hj hfit (by omega) hp arcClosure_sub arcClosure_arc hal hs hi hw
  exact ⟨x, _, d, by rw [Nat.add_mul_mod_self_right, Nat.mod_eq_of_lt hi], h1, h2, h3⟩

/-- So, with a word for each flag no two workers store the same word at the same time. -/
theorem C83_no_two_stores_partial (hc : c.Valid) (hp : c.Proper) (hj : 0 < jobs.toNat)
    (hfit : c.h + jobs.toNat ≤ 18446744073709551616) (hal : AllAlive c.w c.h (arcClosure c.w c.h c.E c.Av))
    (hs : Steps fresh (fun _ => 0) jobs.toNat (roundStart 1 jobs c) P) (h : Race jobs.toNat P i j w) :
    ¬ (P.prog j).Stores w := by
  obtain ⟨hi, hj', hij, hsi, -⟩ := h
  intro hsj
  obtain ⟨x, y, d, h1, h2, -, h3⟩ := C83_own_rows_partial hc hp hj hfit hal hs hi hsi
  obtain ⟨x', y', d', h1', h2', -, h3'⟩ := C83_own_rows_partial hc hp hj hfit hal hs hj' hsj
  rw [Nat.div_one] at h3 h3'
  obtain ⟨rfl, rfl, rfl⟩ := nidx_inj (h := c.h) (l := c.levels) h2.2.1 h2.2.2.1 h2'.2.1 h2'.2.2.1 (h3.symm.trans h3')
  exact hij (h1.symm.trans h1')

/-- And if nothing is to be removed, there are no races at all. -/
theorem C83_nothing_to_remove_partial (hc : c.Valid) (hp : c.Proper) (hj : 0 < jobs.toNat)
    (hfit : c.h + jobs.toNat ≤ 18446744073709551616) (hal : AllAlive c.w c.h c.Av) (harc : ArcConsistent c.w c.h c.E c.Av)
    (hs : Steps fresh (fun _ => 0) jobs.toNat (roundStart B jobs c) P) : ¬ Race jobs.toNat P i j w := by
  rintro ⟨hi, -, -, hsi, -⟩
  obtain ⟨x, k, d, h1, h2, -⟩ := round_stores hc hj hfit (by omega) hp (S := c.Av) (fun _ _ _ h => h) harc hal hs hi hsi
  exact h2 h1

end

/-! ### Concrete races of threads -/

/-- The word to which the next step stores. -/
def Prog.storesTo {α : Type} : Prog α → Option Nat
  | .store w _ _ => some w
  | _ => none

/-- The word which the next step loads. -/
def Prog.loadsFrom {α : Type} : Prog α → Option Nat
  | .load w _ => some w
  | _ => none

theorem Prog.stores_of {α : Type} {p : Prog α} {w : Nat} (h : p.storesTo = some w) : p.Stores w := by
  cases p <;> simp_all [Prog.storesTo, Prog.Stores]

theorem Prog.loads_of {α : Type} {p : Prog α} {w : Nat} (h : p.loadsFrom = some w) : p.Loads w := by
  cases p <;> simp_all [Prog.loadsFrom, Prog.Loads]

/-- After the turns of two threads the thread `0` is about to store the word `w`; the thread `1` is about to store it, or to load it. -/
def racesAfter (B : Nat) (turns : List (Nat × Nat)) (w : Nat) (both : Bool) (c : ConstraintGraph Int) : Bool :=
  let r := play turns (roundStart B 2 c).prog fun _ => flagsOf c.nodesAvailability
  turns.all (fun t => decide (t.1 < 2)) && ((r.1 0).storesTo == some w) &&
    (if both then (r.1 1).storesTo == some w else (r.1 1).loadsFrom == some w)

theorem race_of_play {B : Nat} {turns : List (Nat × Nat)} {w : Nat} {both : Bool} {c : ConstraintGraph Int}
    (h : racesAfter B turns w both c = true) :
    ∃ P, Steps true (fun _ => 0) 2 (roundStart B 2 c) P ∧ Race 2 P 0 1 w ∧ (both = true → (P.prog 1).Stores w) := by
  unfold racesAfter at h
  simp only [Bool.and_eq_true, beq_iff_eq] at h
  obtain ⟨⟨h1, h2⟩, h3⟩ := h
  obtain ⟨P, hs, hpr, -⟩ := Steps.play (fresh := true) (group := fun _ => 0) (n := 2) turns
    (fun t ht => by simpa using List.all_eq_true.1 h1 t ht) (Pool.start_ok (flagsOf c.nodesAvailability) (roundStart B 2 c).prog)
  change P.prog = (play turns (roundStart B 2 c).prog fun _ => flagsOf c.nodesAvailability).1 at hpr
  refine ⟨P, hs, ⟨by omega, by omega, by omega, ?_, ?_⟩, ?_⟩
  · rw [hpr]
    exact Prog.stores_of h2
  · rw [hpr]
    cases both
    · exact .inl (Prog.loads_of (by simpa using h3))
    · exact .inr (Prog.stores_of (by simpa using h3))
  · rintro rfl
    rw [hpr]
    exact Prog.stores_of (by simpa using h3)

/-- The steps of the thread `0` before its first store, and those of the thread `1`. -/
def raceTurns : List (Nat × Nat) := [(0, 42), (1, 6)]

/-- What is computed: if there is a race after these turns, the behaviour is undefined; otherwise threads `0` and `1` are executed one after
another. -/
def raceProbe : Solver Int := fun _ c =>
  if racesAfter 64 raceTurns 0 true c then .error .ub
  else match solveInOrder 2 [0, 1] c with
    | .ok r => .ok r
    | .error _ => .error .nonterm

/-- **C83** is false. With two threads and `std::vector<bool>` both may be about to store the same word; with a word for each flag one of
them stores a flag that the other one loads. All of this happens in executions in which loads always give the latest values. By
the standard of C++ this is undefined behaviour, and it is the behaviour of the whole program for accepted images. -/
theorem C83_threads_race_refuted :
    (raceStart.Valid ∧ ∃ P, Steps true (fun _ => 0) 2 (roundStart 64 2 raceStart) P ∧ Race 2 P 0 1 0 ∧ (P.prog 1).Stores 0) ∧
    (loopStart.Valid ∧ ∃ P, Steps true (fun _ => 0) 2 (roundStart 1 2 loopStart) P ∧ Race 2 P 0 1 1) ∧
    raceGraph.Fresh ∧ ∃ solve : Solver Int, solve.PossibleStd 64 2 ∧ Par.disparityMap solve raceGraph = .error .ub := by
  have h1 : racesAfter 64 raceTurns 0 true raceStart = true := by decide +kernel
  have h2 : racesAfter 1 [(0, 3), (1, 7)] 1 false loopStart = true := by decide +kernel
  have h3 : (match Par.disparityMap raceProbe raceGraph with
      | .ok _ => false
      | .error e => e == .ub) = true := by decide +kernel
  obtain ⟨P, a1, a2, a3⟩ := race_of_play h1
  obtain ⟨Q, b1, b2, -⟩ := race_of_play h2
  refine ⟨⟨raceStart_ok.1, P, a1, a2, a3 rfl⟩,
    ⟨((pipeline_start loopGraph_fresh 0).okD (noGraph loopGraph)).1, Q, b1, b2⟩, raceGraph_fresh, ?_⟩
  have key : ∀ n (c : ConstraintGraph Int), ∃ m, SolveOutcomeStd 64 2 c m ∧ Refines (· = .nonterm) m (raceProbe n c) := by
    intro n c
    by_cases hr : racesAfter 64 raceTurns 0 true c = true
    · obtain ⟨P, a1, a2, -⟩ := race_of_play hr
      exact ⟨.error .ub, .inr ⟨rfl, c, P, 0, 1, 0, .refl c, a1, a2⟩, .inr (by unfold raceProbe; rw [if_pos hr])⟩
    · cases hm : solveInOrder 2 [0, 1] c with
      | ok r =>
        refine ⟨.ok r, .inl (SolveTo.of_order (l := [0, 1]) (by decide) (by intro i; simp; omega) hm), .inr ?_⟩
        unfold raceProbe
        rw [if_neg hr, hm]
      | error e =>
        obtain ⟨m, hm'⟩ := SolveOutcome.exists 64 2 c
        refine ⟨m, .inl hm', .inl ⟨_, rfl, ?_⟩⟩
        unfold raceProbe
        rw [if_neg hr, hm]
  choose solve hsolve using key
  refine ⟨solve, fun n c => (hsolve n c).1, ?_⟩
  rcases refines_disparityMap (fun n c => (hsolve n c).2) raceGraph with ⟨e, rfl, h⟩ | h
  · rw [h] at h3; cases h3
  · rw [h]
    split at h3
    · cases h3
    · rename_i e he
      rw [he, beq_iff_eq.1 h3]

/-- Steps of the worker `0` before its first store. -/
def smallSteps : Nat := 15

/-- Non-vacuity of `C83_own_rows_partial`: each pixel keeps a node, and a worker stores a word. -/
example : smallStart.Valid ∧ smallStart.Proper ∧ AllAlive smallStart.w smallStart.h
      (arcClosure smallStart.w smallStart.h smallStart.E smallStart.Av) ∧
    ∃ P, Steps true (fun _ => 0) 2 (roundStart 64 2 smallStart) P ∧ (P.prog 0).Stores 0 := by
  obtain ⟨hv, hp, hpl⟩ := smallStart_ok
  refine ⟨hv, hp, (C32_arc_consistency_decides hpl).1.1 ⟨fun _ _ => 0, ?_⟩, ?_⟩
  · have hw : smallStart.w = 3 := by decide +kernel
    have hh : smallStart.h = 1 := by decide +kernel
    have hl : smallStart.levels = 2 := by decide +kernel
    have edge : ∀ x k, (isEdgeAvailable smallStart ⟨mkNode x 0 0, mkNode (nbx x k) (nby 0 k) 0⟩).toOption = some true →
        HasNb smallStart.w smallStart.h x 0 k → smallStart.Av x 0 0 ∧ smallStart.E x 0 k 0 0 := by
      intro x k h hk
      obtain ⟨b, hb, hi⟩ := isEdgeAvailable_mk hv hk (d := 0) (d' := 0) (by omega) (by omega)
      rw [hb] at h
      simp only [Except.toOption, Option.some.injEq] at h
      exact ⟨(hi.1 h).1, (hi.1 h).2.2⟩
    have e1 := edge 0 0 (by decide +kernel) (by rw [hw, hh]; decide)
    have e2 := edge 1 0 (by decide +kernel) (by rw [hw, hh]; decide)
    have e3 := edge 1 1 (by decide +kernel) (by rw [hw, hh]; decide)
    have e4 := edge 2 1 (by decide +kernel) (by rw [hw, hh]; decide)
    intro x y hx hy
    rw [hw] at hx
    rw [hh] at hy
    obtain rfl : y = 0 := by omega
    rcases (show x = 0 ∨ x = 1 ∨ x = 2 by omega) with rfl | rfl | rfl
    · refine ⟨e1.1, fun k hk => ?_⟩
      have := hk.2.2
      rw [hw, hh] at this
      obtain rfl : k = 0 := by omega
      exact e1.2
    · refine ⟨e2.1, fun k hk => ?_⟩
      have := hk.2.2
      rw [hw, hh] at this
      rcases (show k = 0 ∨ k = 1 by omega) with rfl | rfl
      · exact e2.2
      · exact e3.2
    · refine ⟨e4.1, fun k hk => ?_⟩
      have := hk.2.2
      rw [hw, hh] at this
      obtain rfl : k = 1 := by omega
      exact e4.2
  · obtain ⟨P, hs, hpr, -⟩ := Steps.play (fresh := true) (group := fun _ => 0) (n := 2) [(0, smallSteps)] (by simp)
      (Pool.start_ok (flagsOf smallStart.nodesAvailability) (roundStart 64 2 smallStart).prog)
    refine ⟨P, hs, Prog.stores_of ?_⟩
    rw [hpr]
    decide +kernel

/-! ## GPU -/
section
variable {D : Type} [FloatOps D] {d : Device D} {group : Nat → Nat} {fresh : Bool} {P : Pool Unit} {i j w : Nat}

/-- Pixels are neighbors. -/
def Beside (W H x y x' y' : Nat) : Prop := ∃ k, HasNb W H x y k ∧ x' = nbx x k ∧ y' = nby y k

theorem race_flags {kernel : Kernel D} {cl : Bool} {px py : Nat → Nat} (hc : d.graph.Valid)
    (hk : CoversAt kernel cl d.graph px py) (hs : Steps fresh group d.items (d.launch kernel) P)
    (h : Race d.items P i j w) (hch : ¬ IsChanged d.graph w) :
    (∃ dd, dd < d.graph.levels ∧ w = d.graph.ix (px i) (py i) dd) ∧ ¬ (P.prog j).Stores w ∧
      Beside d.graph.w d.graph.h (px j) (py j) (px i) (py i) := by
  obtain ⟨hi, hj, hij, hsi, hsj⟩ := h
  have hit := Device.items_eq hc
  rw [hit] at hi hj
  obtain ⟨xi, yi, pi⟩ := hk.item i hi
  obtain ⟨xj, yj, pj⟩ := hk.item j hj
  have ui : (P.prog i).Uses _ _ := hs.uses (item_uses hc xi yi pi)
  have uj : (P.prog j).Uses _ _ := hs.uses (item_uses hc xj yj pj)
  obtain ⟨dd, hdd, hw⟩ := (ui.stores hsi).resolve_left hch
  rw [Nat.div_one] at hw
  have hne : ∀ d', d' < d.graph.levels → w ≠ d.graph.ix (px j) (py j) d' := by
    intro d' hd' he
    obtain ⟨e1, e2, -⟩ := nidx_inj (h := d.graph.h) (l := d.graph.levels) yi hdd yj hd' (hw.symm.trans he)
    exact hij (hk.inj i j hi hj e1 e2)
  have hst : ¬ (P.prog j).Stores w := by
    intro h
    obtain ⟨d', hd', hw'⟩ := (uj.stores h).resolve_left hch
    exact hne d' hd' (by simpa using hw')
  refine ⟨⟨dd, hdd, hw⟩, hst, ?_⟩
  rcases uj.loads (hsj.resolve_right hst) with h | h
  · exact absurd h hch
  · rcases h with ⟨d', hd', hw'⟩ | ⟨k, d', hk', hd', hw'⟩
    · exact absurd (by simpa using hw') (hne d' hd')
    · rw [Nat.div_one] at hw'
      obtain ⟨e1, e2, -⟩ := nidx_inj (h := d.graph.h) (l := d.graph.levels) yi hdd hk'.nby_lt hd' (hw.symm.trans hw')
      exact ⟨k, hk', e1, e2⟩

/-- **C83** for GPU, what holds. Full statement: no two work items access the same word at the same time, at least one of them storing it. It
is false (`C83_kernels_race_refuted`). What holds: all races are on the cells `changed`, or one of items stores a flag of its own pixel
and the other one, of a neighbor pixel, loads this flag. OpenCL. -/
theorem C83_kernel_cl_partial (hc : d.graph.Valid) (hs : Steps fresh group d.items (d.launch cspIteration) P)
    (h : Race d.items P i j w) :
    IsChanged d.graph w ∨
    ((∃ dd, dd < d.graph.levels ∧ w = d.graph.ix (i % d.graph.w) (i / d.graph.w) dd) ∧ ¬ (P.prog j).Stores w ∧
      Beside d.graph.w d.graph.h (j % d.graph.w) (j / d.graph.w) (i % d.graph.w) (i / d.graph.w)) := by
  by_cases hch : IsChanged d.graph w
  · exact .inl hch
  · exact .inr (race_flags hc (coversAt_cl hc) hs h hch)

/-- The same for CUDA. -/
theorem C83_kernel_cuda_partial (hc : d.graph.Valid) (hs : Steps fresh group d.items (d.launch cspIterationCuda) P)
    (h : Race d.items P i j w) :
    IsChanged d.graph w ∨
    ((∃ dd, dd < d.graph.levels ∧ w = d.graph.ix (i / d.graph.h) (i % d.graph.h) dd) ∧ ¬ (P.prog j).Stores w ∧
      Beside d.graph.w d.graph.h (j / d.graph.h) (j % d.graph.h) (i / d.graph.h) (i % d.graph.h)) := by
  by_cases hch : IsChanged d.graph w
  · exact .inl hch
  · exact .inr (race_flags hc (coversAt_cuda hc) hs h hch)

/-- In each launch with at least two items they race on `changed[0]`: after the resets in the beginning, which are atomic in OpenCL
(`solve_csp.cl:116-117`), all items store it by an ordinary assignment (`solve_csp.cl:63`, `solve_csp.cu:106`). -/
theorem C83_kernels_race_refuted (group : Nat → Nat) (h2 : 2 ≤ d.items) :
    (∃ P, Steps true group d.items (d.launch cspIteration) P ∧ Race d.items P 0 1 (changedWord d.graph 0) ∧
      ∀ i < 2, P.prog i = cspSolutionIterationCl d.graph (itemPixel d.graph (UInt64.ofNat i))) ∧
    Race d.items (d.launch cspIterationCuda) 0 1 (changedWord d.graph 0) := by
  refine ⟨?_, by omega, by omega, by omega, ⟨_, _, rfl⟩, .inr ⟨_, _, rfl⟩⟩
  obtain ⟨P, hs, hpr, -⟩ := Steps.play (fresh := true) (group := group) (n := d.items) [(0, 2), (1, 2)]
    (fun t ht => by
      simp only [List.mem_cons, List.not_mem_nil, or_false] at ht
      rcases ht with rfl | rfl
      · show 0 < d.items; omega
      · show 1 < d.items; omega) (Pool.start_ok d.flags (d.launch cspIteration).prog)
  have e0 : P.prog 0 = cspSolutionIterationCl d.graph (itemPixel d.graph (UInt64.ofNat 0)) := by rw [hpr]; rfl
  have e1 : P.prog 1 = cspSolutionIterationCl d.graph (itemPixel d.graph (UInt64.ofNat 1)) := by rw [hpr]; rfl
  refine ⟨P, hs, ⟨by omega, by omega, by omega, ?_, .inr ?_⟩, fun i hi => ?_⟩
  · rw [e0]; exact ⟨_, _, rfl⟩
  · rw [e1]; exact ⟨_, _, rfl⟩
  · rcases (show i = 0 ∨ i = 1 by omega) with rfl | rfl
    · exact e0
    · exact e1

end

/-- The device in the beginning. -/
def raceDevice : Device Int := { graph := startOf missGraph 0, changed := fun _ => false }

/-- All four items come to the first barrier; then the item `1` makes six steps, and the item `2` four. -/
def raceItems : List Turn := ((List.range 4).map fun i => Turn.run i 3000) ++ [.meet 0, .run 1 6, .run 2 4]

/-- There are races on flags as well: the item `1` stores the flag `3` that the item `2` loads. -/
theorem C83_flags_race_refuted {kernel : Kernel Int} (hk : IsKernel kernel) : raceDevice.graph.Valid ∧
    ∃ P, Steps true (fun _ => 0) raceDevice.items (raceDevice.launch kernel) P ∧ Race raceDevice.items P 1 2 3 ∧
      ¬ IsChanged raceDevice.graph 3 := by
  refine ⟨((pipeline_start missGraph_fresh 0).okD (noGraph missGraph)).1, ?_⟩
  have hn : raceDevice.items = 4 := rfl
  obtain ⟨P, hs, hpr, -⟩ := Steps.playTurns (fresh := true) (group := fun _ => 0) (n := raceDevice.items) raceItems (by decide)
    (Pool.start_ok raceDevice.flags (raceDevice.launch kernel).prog)
  have h : ((P.prog 1).storesTo = some 3) ∧ ((P.prog 2).loadsFrom = some 3) := by
    rw [hpr]
    rcases hk with rfl | rfl
    · exact ⟨by decide +kernel, by decide +kernel⟩
    · exact ⟨by decide +kernel, by decide +kernel⟩
  have hsize : raceDevice.graph.nodesAvailability.size = 12 := by decide +kernel
  refine ⟨P, hs, ⟨by omega, by omega, by omega, Prog.stores_of h.1, .inl (Prog.loads_of h.2)⟩, ?_⟩
  unfold IsChanged changedWord
  omega

end SP
