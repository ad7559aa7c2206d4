import Verif.Props.Gpu
/-!
# Concrete executions of the versions for OpenCL and CUDA

Refutations of C58 and of parts of C76–C79, and examples of what the theorems of `Props/Gpu.lean` are about.
-/
set_option linter.unusedSectionVars false

namespace SP
open FloatOps ConstraintGraph Gpu

/-- Work items are executed one after another, each of them in `k` pieces between barriers. -/
def oneByOne (order : List Nat) (k : Nat) : List Turn :=
  order.flatMap fun i => (List.range k).flatMap fun _ => [Turn.run i 3000, .meet i]

/-- `n` work items of the group `0` are executed in turns; `k` rounds. All of them read `changed[0]` before the first of them resets it. -/
def together (n k : Nat) : List Turn :=
  (List.range k).flatMap fun _ =>
    ((List.range n).map fun i => Turn.run i 3000) ++ [.meet 0] ++
    ((List.range n).map fun i => Turn.run i 3000) ++ [.meet 0] ++
    ((List.range n).map fun i => Turn.run i 1)

/-- `n` work items of the group `0`; at the end of the second round the item `0` resets `changed[0]` before the item `1` reads it. -/
def tooEarly (n : Nat) : List Turn :=
  ((List.range n).map fun i => Turn.run i 3000) ++ [.meet 0] ++
  ((List.range n).map fun i => Turn.run i 3000) ++ [.meet 0, .run 1 3000, .run 0 3000]

/-! ## Launches that are computed -/
section
variable {F D : Type} [FloatOps F] [FloatOps D] {kernel : Kernel D} {group : Nat → Nat} {turns : Nat → List Turn}

/-- Launches executed in given turns; nothing is known if a launch does not end. -/
def computed (kernel : Kernel D) (group : Nat → Nat) (turns : Nat → List Turn) : Launcher D := fun n d =>
  (d.outcome? kernel group (turns n)).getD (.error .nonterm)

theorem computed_refines (n : Nat) (d : Device D) :
    Refines (· = .nonterm) (Launcher.ofTurns kernel group turns n d) (computed kernel group turns n d) := by
  unfold Launcher.ofTurns computed
  cases d.outcome? kernel group (turns n) with
  | none => exact .inl ⟨_, rfl, rfl⟩
  | some m => exact .inr rfl

theorem refines_relaunch {E : Err → Prop} {l l' : Launcher D} (h : ∀ n d, Refines E (l n d) (l' n d)) (fuel : Nat) (d : Device D) (n : Nat) :
    Refines E (relaunch l fuel d n) (relaunch l' fuel d n) := by
  induction fuel generalizing d n with
  | zero => exact .refl _
  | succ fuel ih =>
    unfold relaunch
    exact .bind (h n d) fun d => .ite (ih _ _) (.refl _)

theorem refines_cl {E : Err → Prop} {l l' : Launcher D} (h : ∀ n d, Refines E (l n d) (l' n d)) (conv : F → D) (c : ConstraintGraph F) :
    Refines E (findLabelingCl conv l c) (findLabelingCl conv l' c) := by
  unfold findLabelingCl cspSolutionCl
  refine .bind (.bind (.cfor fun x s => .bind (.cfor fun y s => ?_) fun s => .refl _) fun r => .refl _) fun r => .refl _
  exact .bind (.refl _) fun r => .bind (refines_relaunch h _ _ _) fun s => .refl _

theorem refines_cuda {E : Err → Prop} {l l' : Launcher D} (h : ∀ n d, Refines E (l n d) (l' n d)) (conv : F → D) (c : ConstraintGraph F) :
    Refines E (findLabelingCuda conv l c) (findLabelingCuda conv l' c) := by
  unfold findLabelingCuda cspSolutionCuda
  refine .bind (.bind (.cfor fun x s => .bind (.cfor fun y s => ?_) fun s => .refl _) fun r => .refl _) fun r => .refl _
  exact .bind (.refl _) fun r => .bind (h _ _) fun s => .refl _

end

/-- How the computation of a map ends. -/
def ending (m : M Image) : Err ⊕ List UInt64 :=
  match m with
  | .ok im => .inr im.data.toList
  | .error e => .inl e

theorem ending_error {m : M Image} {e : Err} (h : ending m = .inl e) : m = .error e := by
  cases m with
  | ok im => cases h
  | error e' => cases h; rfl

theorem ending_ok {m : M Image} {l : List UInt64} (h : ending m = .inr l) : ∃ im, m = .ok im ∧ im.data.toList = l := by
  cases m with
  | ok im => cases h; exact ⟨im, rfl, rfl⟩
  | error e' => cases h

section
variable {F D : Type} [FloatOps F] [FloatOps D] {group : Nat → Nat}

/-- What `main` does after `solve_csp`. -/
def mapOf (find : ConstraintGraph F → M (ConstraintGraph F × Bool)) (c : ConstraintGraph F) : M Image := do
  let (c, labeled) ← find c
  if !labeled then
    throw (.exc (.logicError "Cannot find labeling. This should not ever happen. Refer to the developers."))
  buildDisparityMap c

theorem labeledMap_mapOf {solve : Solver F} {g : DisparityGraph F} {c : ConstraintGraph F} {n : Nat} (h : Par.solvedGraph solve g = .ok (c, n))
    (find : ConstraintGraph F → M (ConstraintGraph F × Bool)) : Par.labeledMap solve (fun _ => find) g = mapOf find c := by
  unfold Par.labeledMap mapOf
  rw [h]
  rfl

/-- Computations of a map that are possible. -/
theorem possible_cl {allowed : (Nat → Nat) → Prop} {conv : F → D} {turns : Nat → List Turn} (hg : allowed group) {c : ConstraintGraph F}
    {e : Err ⊕ List UInt64} (hm : ending (mapOf (findLabelingCl conv (computed cspIteration group turns)) c) = e)
    (hne : e ≠ .inl .nonterm) :
    ∃ launch : Launcher D, launch.Possible cspIteration allowed ∧ ending (mapOf (findLabelingCl conv launch) c) = e := by
  refine ⟨_, Launcher.ofTurns_possible hg turns, ?_⟩
  have : Refines (· = .nonterm) (mapOf (findLabelingCl conv (.ofTurns cspIteration group turns)) c)
    (mapOf (findLabelingCl conv (computed cspIteration group turns)) c) := .bind (refines_cl computed_refines conv c) fun r => .refl _
  rcases this with ⟨_, rfl, h'⟩ | h'
  · rw [h'] at hm
    exact absurd hm.symm hne
  · rw [h']; exact hm

theorem possible_cuda {allowed : (Nat → Nat) → Prop} {conv : F → D} {turns : Nat → List Turn} (hg : allowed group) {c : ConstraintGraph F}
    {e : Err ⊕ List UInt64} (hm : ending (mapOf (findLabelingCuda conv (computed cspIterationCuda group turns)) c) = e)
    (hne : e ≠ .inl .nonterm) :
    ∃ launch : Launcher D, launch.Possible cspIterationCuda allowed ∧ ending (mapOf (findLabelingCuda conv launch) c) = e := by
  refine ⟨_, Launcher.ofTurns_possible hg turns, ?_⟩
  have : Refines (· = .nonterm) (mapOf (findLabelingCuda conv (.ofTurns cspIterationCuda group turns)) c)
    (mapOf (findLabelingCuda conv (computed cspIterationCuda group turns)) c) := .bind (refines_cuda computed_refines conv c) fun r => .refl _
  rcases this with ⟨_, rfl, h'⟩ | h'
  · rw [h'] at hm
    exact absurd hm.symm hne
  · rw [h']; exact hm

/-- The solver that gives the results of the sequential model. -/
theorem seqSolver (F : Type) [FloatOps F] (jobs : UInt64) : ∃ solve : Solver F, solve.Possible 64 jobs ∧
    ∀ g c, (solvedGraph jobs g).toOption = some c → ∃ n, Par.solvedGraph solve g = .ok (c, n) := by
  obtain ⟨solve, h1, h2⟩ := Solver.Possible.seq (F := F) 64 jobs
  refine ⟨solve, h1, fun g c h => ?_⟩
  rw [← par_solvedGraph_seq] at h
  cases hm : Par.solvedGraph (fun _ => solveCsp jobs) g with
  | error e => rw [hm] at h; cases h
  | ok r =>
    rw [hm] at h
    cases h
    rcases refines_solvedGraph h2 g with ⟨e, -, h'⟩ | h'
    · rw [hm] at h'; cases h'
    · exact ⟨r.2, h'.trans hm⟩

end

set_option maxRecDepth 1000000

/-- What is known of the graph after `solve_csp`. -/
theorem solved_ok {g : DisparityGraph Int} {c : ConstraintGraph Int} (hg : g.Fresh) (hfit : g.h + 1 ≤ 18446744073709551616)
    (h : (solvedGraph 1 g).toOption = some c) : ∃ t, Solved g t c := by
  obtain ⟨solve, h1, h2⟩ := seqSolver Int 1
  obtain ⟨n, hn⟩ := h2 g c h
  obtain ⟨t, ht, -⟩ := (par_solvedGraph h1 hg (by decide) hfit).of_ok hn
  exact ⟨t, ht⟩

/-! ## C58: items of a work group miss each other at a barrier -/

def missGraph : DisparityGraph Int := freshGraph (img 4 1 9 [1, 0, 2, 0]) (img 4 1 9 [2, 0, 1, 1]) 3 1 1

theorem missGraph_fresh : missGraph.Fresh := by
  refine freshGraph_fresh ⟨rfl, by decide⟩ ⟨rfl, by decide⟩ (accepted_of ?_ ?_ ?_ ?_ ?_ ?_ ?_ rfl rfl rfl ?_ ?_ ?_) ?_ <;> decide

/-- The graph after `solve_csp`. -/
def missSolved : ConstraintGraph Int :=
  { disparityGraph := missGraph
    lowestPenalties := { graph := missGraph, pixels := #[0, 0, 1, 1], neighborhoods := Array.replicate 16 0 }
    nodesAvailability := #[true, false, true, true, false, true, true, true, false, true, false, false]
    threshold := 1 }

theorem missSolved_eq : (solvedGraph 1 missGraph).toOption = some missSolved := by decide +kernel

theorem missSolved_ok : missSolved.Valid ∧ missSolved.Proper :=
  let ⟨_, h⟩ := solved_ok missGraph_fresh (by decide) missSolved_eq
  ⟨h.valid, h.proper⟩

theorem miss_cl : ending (mapOf (findLabelingCl id (computed cspIteration (fun _ => 0) fun _ => tooEarly 4)) missSolved) =
    .inl .ub := by decide +kernel

theorem miss_cuda : ending (mapOf (findLabelingCuda id (computed cspIterationCuda (fun _ => 0) fun _ => tooEarly 4)) missSolved) =
    .inl .ub := by decide +kernel

/-- **C58** is false, and this concerns the whole program. For accepted images, with all the work items in a single work group, the item
`0` resets `changed[0]` before the item `1` has read it. Then the item `1` returns, and the item `0` waits for it at the barrier. This
holds both for OpenCL and for CUDA. -/
theorem C58_barriers_refuted : missGraph.Fresh ∧ ∃ solve : Solver Int, solve.Possible 64 1 ∧
    (∃ launch : Launcher Int, launch.Possible cspIteration (fun group => group = fun _ => 0) ∧
      Par.labeledMap solve (fun _ => findLabelingCl id launch) missGraph = .error .ub) ∧
    (∃ launch : Launcher Int, launch.Possible cspIterationCuda (fun group => group = fun _ => 0) ∧
      Par.labeledMap solve (fun _ => findLabelingCuda id launch) missGraph = .error .ub) ∧
    ∀ kernel : Kernel Int, IsKernel kernel → ∃ d : Device Int, d.graph.Valid ∧
      ∃ P, Steps false (fun _ => 0) d.items (d.launch kernel) P ∧ Missed (fun _ => 0) d.items P := by
  obtain ⟨solve, h1, h2⟩ := seqSolver Int 1
  obtain ⟨n, hn⟩ := h2 _ _ missSolved_eq
  obtain ⟨l1, p1, e1⟩ := possible_cl (conv := id) (allowed := fun group => group = fun _ => 0) rfl miss_cl (by simp)
  obtain ⟨l2, p2, e2⟩ := possible_cuda (conv := id) (allowed := fun group => group = fun _ => 0) rfl miss_cuda (by simp)
  refine ⟨missGraph_fresh, solve, h1, ⟨l1, p1, ?_⟩, ⟨l2, p2, ?_⟩, ?_⟩
  · rw [labeledMap_mapOf hn]
    exact ending_error e1
  · rw [labeledMap_mapOf hn]
    exact ending_error e2
  · have key : ∀ {f : ConstraintGraph Int → M (ConstraintGraph Int × Bool)} {kernel : Kernel Int},
        Res (Misses kernel fun group => group = fun _ => 0) (f missSolved) (fun r => Found (D := Int) id
          (fun group => group = fun _ => 0) missSolved r.1 ∧ r.2 = true) → ending (mapOf f missSolved) = .inl .ub →
        ∃ d : Device Int, d.graph.Valid ∧ ∃ P, Steps false (fun _ => 0) d.items (d.launch kernel) P ∧ Missed (fun _ => 0) d.items P := by
      intro f kernel hres he
      cases hm : f missSolved with
      | error e =>
        rw [hm] at hres
        obtain ⟨-, d, group, P, hd, rfl, hs, hmi⟩ := hres
        exact ⟨d, hd, P, hs, hmi⟩
      | ok r =>
        rw [hm] at hres
        obtain ⟨c, b⟩ := r
        obtain ⟨hf, hb⟩ := hres
        simp only at hf hb
        subst hb
        have he := ending_error he
        unfold mapOf at he
        rw [hm, bind_ok] at he
        simp only [Bool.not_true, Bool.false_eq_true, if_false] at he
        rcases buildDisparityMap_mk hf.valid (hf.same.proper missSolved_ok.2 hf.sub) with ⟨-, im, h0, -⟩ | ⟨-, h0⟩
        · rw [h0] at he; cases he
        · rw [h0] at he; cases he
    rintro kernel (rfl | rfl)
    · exact key (findLabelingCl_res p1 missSolved_ok.1 missSolved_ok.2) e1
    · exact key (findLabelingCuda_res p2 missSolved_ok.1 missSolved_ok.2) e2

/-! ## C76: results depend on the schedule -/

def orderGraph : DisparityGraph Int := freshGraph (img 4 2 9 [3, 0, 3, 1, 2, 3, 0, 3]) (img 4 2 9 [1, 1, 2, 2, 1, 2, 2, 2]) 3 1 1

theorem orderGraph_fresh : orderGraph.Fresh := by
  refine freshGraph_fresh ⟨rfl, by decide⟩ ⟨rfl, by decide⟩ (accepted_of ?_ ?_ ?_ ?_ ?_ ?_ ?_ rfl rfl rfl ?_ ?_ ?_) ?_ <;> decide

/-- The graph after `solve_csp`. -/
def orderSolved : ConstraintGraph Int :=
  { disparityGraph := orderGraph
    lowestPenalties := { graph := orderGraph, pixels := #[1, 0, 1, 1, 1, 1, 1, 1], neighborhoods := Array.replicate 32 0 }
    nodesAvailability := #[false, true, false, true, false, true, true, false, true, true, false, true, true, true, false, false,
      true, false, true, false, false, true, false, false]
    threshold := 1 }

theorem orderSolved_eq : (solvedGraph 1 orderGraph).toOption = some orderSolved := by decide +kernel

theorem order_cl1 : ending (mapOf (findLabelingCl id (computed cspIteration id fun _ => oneByOne [6, 7, 3, 0, 2, 5, 1, 4] 8))
    orderSolved) = .inr [1, 0, 0, 0, 0, 0, 1, 0] := by decide +kernel

theorem order_cl2 : ending (mapOf (findLabelingCl id (computed cspIteration id fun _ => oneByOne [3, 4, 6, 1, 2, 7, 5, 0] 8))
    orderSolved) = .inl (.exc (.logicError "Cannot find label for the pixel")) := by decide +kernel

theorem order_cuda1 : ending (mapOf (findLabelingCuda id (computed cspIterationCuda id fun _ => oneByOne [6, 7, 3, 0, 2, 5, 1, 4] 8))
    orderSolved) = .inr [1, 0, 0, 0, 0, 0, 1, 0] := by decide +kernel

theorem order_cuda2 : ending (mapOf (findLabelingCuda id (computed cspIterationCuda id fun _ => oneByOne (List.range 8) 8))
    orderSolved) = .inl (.exc (.logicError "Cannot find label for the pixel")) := by decide +kernel

/-- **C76** is false: each work item has a group of its own, and whether a map is found depends on the order in which the items are
executed. -/
theorem C76_schedule_independent_refuted : orderGraph.Fresh ∧ ∃ solve : Solver Int, solve.Possible 64 1 ∧
    (∃ launch launch' : Launcher Int, launch.Possible cspIteration (· = id) ∧ launch'.Possible cspIteration (· = id) ∧
      (∃ im, Par.labeledMap solve (fun _ => findLabelingCl id launch) orderGraph = .ok im) ∧
      Par.labeledMap solve (fun _ => findLabelingCl id launch') orderGraph =
        .error (.exc (.logicError "Cannot find label for the pixel"))) ∧
    (∃ launch launch' : Launcher Int, launch.Possible cspIterationCuda (· = id) ∧ launch'.Possible cspIterationCuda (· = id) ∧
      (∃ im, Par.labeledMap solve (fun _ => findLabelingCuda id launch) orderGraph = .ok im) ∧
      Par.labeledMap solve (fun _ => findLabelingCuda id launch') orderGraph =
        .error (.exc (.logicError "Cannot find label for the pixel"))) := by
  obtain ⟨solve, h1, h2⟩ := seqSolver Int 1
  obtain ⟨n, hn⟩ := h2 _ _ orderSolved_eq
  obtain ⟨l1, p1, e1⟩ := possible_cl (conv := id) (allowed := (· = id)) rfl order_cl1 (by simp)
  obtain ⟨l2, p2, e2⟩ := possible_cl (conv := id) (allowed := (· = id)) rfl order_cl2 (by simp)
  obtain ⟨l3, p3, e3⟩ := possible_cuda (conv := id) (allowed := (· = id)) rfl order_cuda1 (by simp)
  obtain ⟨l4, p4, e4⟩ := possible_cuda (conv := id) (allowed := (· = id)) rfl order_cuda2 (by simp)
  obtain ⟨im1, i1, -⟩ := ending_ok e1
  obtain ⟨im3, i3, -⟩ := ending_ok e3
  refine ⟨orderGraph_fresh, solve, h1, ⟨l1, l2, p1, p2, ⟨im1, ?_⟩, ?_⟩, ⟨l3, l4, p3, p4, ⟨im3, ?_⟩, ?_⟩⟩ <;>
    rw [labeledMap_mapOf hn]
  · exact i1
  · exact ending_error e2
  · exact i3
  · exact ending_error e4

/-! ## C77: the loop of the host stops too early -/

/-- The device after a node of the pixel `(0, 0)` has been chosen. -/
def stopDevice : Device Int :=
  { graph := { missSolved with
      nodesAvailability := #[false, false, true, true, false, true, true, true, false, true, false, false] }
    changed := fun _ => false }

theorem stopDevice_eq : (chooseBestNode missSolved ⟨0, 0⟩).toOption = some (stopDevice.graph, true) := by decide +kernel

theorem stop_relaunch : (relaunch (computed cspIteration id fun _ => oneByOne [2, 3, 1, 0] 6)
    (stopDevice.graph.nodesAvailability.size + 1) stopDevice 0).toOption.map (fun r =>
      (r.1.changed 1, (shouldRemoveNode r.1.graph (mkNode 2 0 0)).toOption)) = some (false, some true) := by decide +kernel

theorem settled_of {D : Type} [FloatOps D] {launch : Launcher D} {allowed : (Nat → Nat) → Prop} {d : Device D} {n : Nat}
    {r : Device D × Nat} (hl : launch.Possible cspIteration allowed) (hc : d.graph.Valid) (hp : d.graph.Proper)
    (h : relaunch launch (d.graph.nodesAvailability.size + 1) d n = .ok r) : Settled cspIteration allowed d r.1 :=
  ((relaunch_res covers_cl hl n hc hp (Nat.lt_succ_of_le (avCard_le hc))).of_ok h).1

/-- **C77** is false: each work item has a group of its own; items that begin later reset `changed[1]` set by those that have returned.
The state is that of the program for accepted images, after a node of the first pixel has been chosen. -/
theorem C77_stops_at_fixed_point_refuted : missGraph.Fresh ∧ ∃ c d, solvedGraph 1 missGraph = .ok c ∧
    chooseBestNode c ⟨0, 0⟩ = .ok (d.graph, true) ∧ d.graph.Valid ∧ d.graph.Proper ∧
    ∃ launch : Launcher Int, launch.Possible cspIteration (· = id) ∧
    ∃ r, relaunch launch (d.graph.nodesAvailability.size + 1) d 0 = .ok r ∧ r.1.changed 1 = false ∧
      ¬ ArcConsistent r.1.graph.w r.1.graph.h r.1.graph.E r.1.graph.Av := by
  have hch : chooseBestNode missSolved ⟨0, 0⟩ = .ok (stopDevice.graph, true) := by
    have := stopDevice_eq
    cases h : chooseBestNode missSolved ⟨0, 0⟩ with
    | error e => rw [h] at this; cases this
    | ok r => rw [h] at this; cases this; rfl
  have hsol : solvedGraph 1 missGraph = .ok missSolved := by
    have := missSolved_eq
    cases h : solvedGraph 1 missGraph with
    | error e => rw [h] at this; cases this
    | ok r => rw [h] at this; cases this; rfl
  obtain ⟨⟨g1, b1⟩, hm, k1, k2, k3, -⟩ := chooseBestNode_mk missSolved_ok.1 missSolved_ok.2 (x := 0) (y := 0) (by decide) (by decide)
  have hpx : mkPixel 0 0 = ⟨0, 0⟩ := rfl
  rw [hpx, hch] at hm
  cases hm
  simp only at k1 k2 k3
  have hp1 : stopDevice.graph.Proper := k1.proper missSolved_ok.2 fun x y d h => ((k3 x y d).1 h).1
  have hl : (Launcher.ofTurns (D := Int) cspIteration id fun _ => oneByOne [2, 3, 1, 0] 6).Possible cspIteration (· = id) :=
    Launcher.ofTurns_possible (allowed := (· = id)) (group := id) rfl _
  refine ⟨missGraph_fresh, missSolved, stopDevice, hsol, hch, k2, hp1, _, hl, ?_⟩
  have hst := stop_relaunch
  rcases refines_relaunch (l' := computed cspIteration id fun _ => oneByOne [2, 3, 1, 0] 6) computed_refines
    (stopDevice.graph.nodesAvailability.size + 1) stopDevice 0 with ⟨e, -, h⟩ | h
  · rw [h] at hst; cases hst
  · rw [h]
    cases hr : relaunch (computed cspIteration id fun _ => oneByOne [2, 3, 1, 0] 6)
        (stopDevice.graph.nodesAvailability.size + 1) stopDevice 0 with
    | error e => rw [hr] at hst; cases hst
    | ok r =>
      rw [hr] at hst h
      simp only [Except.toOption, Option.map_some, Option.some.injEq, Prod.mk.injEq] at hst
      refine ⟨r, rfl, hst.1, fun harc => ?_⟩
      have hset := settled_of hl k2 hp1 h
      obtain ⟨b, hb, hiff⟩ := shouldRemoveNode_mk hset.valid (x := 2) (y := 0) (d := 0) (by
        rw [hset.same.1]; exact ⟨by decide, by decide, by decide, by decide⟩)
      rw [hb] at hst
      obtain ⟨h1, h2⟩ := hiff.1 (by simpa using hst.2)
      exact h2 (harc _ _ _ h1)

/-! ## C78: constraints of the host -/

def lossyGraph : DisparityGraph Int := freshGraph (img 3 1 10 [5, 1, 2]) (img 3 1 10 [1, 1, 9]) 3 1 17

theorem lossyGraph_fresh : lossyGraph.Fresh := by
  refine freshGraph_fresh ⟨rfl, by decide⟩ ⟨rfl, by decide⟩ (accepted_of ?_ ?_ ?_ ?_ ?_ ?_ ?_ rfl rfl rfl ?_ ?_ ?_) ?_ <;> decide

/-- The graph after `solve_csp`. -/
def lossySolved : ConstraintGraph Int :=
  { disparityGraph := lossyGraph
    lowestPenalties := { graph := lossyGraph, pixels := #[0, 0, 49], neighborhoods := Array.replicate 12 0 }
    nodesAvailability := #[true, true, false, true, false, false, true, false, false]
    threshold := 16 }

theorem lossySolved_eq : (solvedGraph 1 lossyGraph).toOption = some lossySolved := by decide +kernel

theorem lossy_cl : ending (mapOf (findLabelingCl (FewDigits.of 3) (computed cspIteration id fun _ => oneByOne [0, 1, 2] 8)) lossySolved) =
    .inr [1, 0, 0] := by decide +kernel

/-- **C78** is false when numbers of the device have fewer digits: here four binary ones, which is enough for `16` and not for `17`. The
found threshold is `16`, and the map uses an edge with the penalty `17`. -/
theorem C78_host_constraints_refuted : lossyGraph.Fresh ∧ ∃ solve : Solver Int, solve.Possible 64 1 ∧
    ∃ launch : Launcher (FewDigits 3), launch.Possible cspIteration (· = id) ∧
    ∃ c n, Par.solvedGraph solve lossyGraph = .ok (c, n) ∧
    ∃ im, Par.labeledMap solve (fun _ => findLabelingCl (FewDigits.of 3) launch) lossyGraph = .ok im ∧
      ¬ lossyGraph.FeasibleAt c.threshold (fun x y => im.at x y) := by
  obtain ⟨solve, h1, h2⟩ := seqSolver Int 1
  obtain ⟨n, hn⟩ := h2 _ _ lossySolved_eq
  obtain ⟨l1, p1, e1⟩ := possible_cl (conv := FewDigits.of 3) (allowed := (· = id)) rfl lossy_cl (by simp)
  obtain ⟨im, i1, i2⟩ := ending_ok e1
  refine ⟨lossyGraph_fresh, solve, h1, l1, p1, lossySolved, n, hn, im, ?_, fun hf => ?_⟩
  · rw [labeledMap_mapOf hn]
    exact i1
  · have hw : im.width = 3 := by
      unfold mapOf at i1
      obtain ⟨⟨c, b⟩, hc, hi⟩ := bind_eq_ok i1
      obtain ⟨t, hs⟩ := solved_ok lossyGraph_fresh (by decide) lossySolved_eq
      obtain ⟨hfo, hb⟩ := (findLabelingCl_res p1 hs.valid hs.proper).of_ok hc
      simp only at hfo hb hi
      subst hb
      simp only [Bool.not_true, Bool.false_eq_true, if_false] at hi
      rcases buildDisparityMap_mk hfo.valid (hfo.same.proper hs.proper hfo.sub) with ⟨-, im', h0, hw, -⟩ | ⟨-, h0⟩
      · rw [h0] at hi
        cases hi
        rw [hw, hfo.same.1]
        rfl
      · rw [h0] at hi; cases hi
    have hd : im.data = #[1, 0, 0] := by rw [← i2]
    have a0 : im.at 0 0 = 1 := by unfold Image.at; rw [hw, hd]; rfl
    have a1 : im.at 1 0 = 0 := by unfold Image.at; rw [hw, hd]; rfl
    have := ((hf 0 0 (by decide) (by decide)).2.2 0 ⟨by decide, by decide, .inl ⟨rfl, by decide⟩⟩).2 0 0
      ⟨⟨by decide, by decide, .inl ⟨rfl, by decide⟩⟩, ⟨by decide, by decide, by decide, by decide⟩,
        ⟨by decide, by decide, by decide, by decide⟩, by decide⟩
    simp only [nbx, nby, if_true] at this
    simp only [show (0 : Nat) ≠ 2 by decide, show (0 : Nat) ≠ 3 by decide, if_false, Nat.zero_add, a0, a1] at this
    revert this
    decide

/-! ## C79: a device finds more than the processor -/

def bothGraph : DisparityGraph Int := freshGraph (img 4 2 10 [3, 2, 4, 1, 0, 1, 4, 2]) (img 4 2 10 [2, 2, 3, 3, 3, 2, 2, 1]) 3 1 1

theorem bothGraph_fresh : bothGraph.Fresh := by
  refine freshGraph_fresh ⟨rfl, by decide⟩ ⟨rfl, by decide⟩ (accepted_of ?_ ?_ ?_ ?_ ?_ ?_ ?_ rfl rfl rfl ?_ ?_ ?_) ?_ <;> decide

/-- The graph after `solve_csp`. -/
def bothSolved : ConstraintGraph Int :=
  { disparityGraph := bothGraph
    lowestPenalties := { graph := bothGraph, pixels := #[0, 0, 1, 4, 1, 0, 0, 1], neighborhoods := Array.replicate 32 0 }
    nodesAvailability := #[true, true, false, false, true, true, true, false, true, true, false, true, true, true, false, false,
      true, false, true, false, false, true, false, false]
    threshold := 3 }

theorem bothSolved_eq : (solvedGraph 1 bothGraph).toOption = some bothSolved := by decide +kernel

theorem both_cpu : ending (mapOf (fun c => findLabeling 1 c) bothSolved) =
    .inl (.exc (.logicError "Cannot find labeling. This should not ever happen. Refer to the developers.")) := by decide +kernel

theorem both_cl : ending (mapOf (findLabelingCl id (computed cspIteration (fun _ => 0) fun _ => together 8 3)) bothSolved) =
    .inr [1, 2, 1, 0, 2, 2, 1, 0] := by decide +kernel

theorem both_cuda : ending (mapOf (findLabelingCuda id (computed cspIterationCuda (fun _ => 0) fun _ => together 8 3)) bothSolved) =
    .inr [1, 2, 1, 0, 2, 2, 1, 0] := by decide +kernel

/-- **C79** is false: for these images a device with a single work group finds a map, both with OpenCL and with CUDA, and the processor,
with one thread, ends with "Cannot find labeling". Numbers of the device are those of the host. -/
theorem C79_gpu_as_cpu_refuted : bothGraph.Fresh ∧
    disparityMap 1 bothGraph =
      .error (.exc (.logicError "Cannot find labeling. This should not ever happen. Refer to the developers.")) ∧
    ∃ solve : Solver Int, solve.Possible 64 1 ∧
    (∃ launch : Launcher Int, launch.Possible cspIteration (fun group => group = fun _ => 0) ∧
      ∃ im, Par.labeledMap solve (fun _ => findLabelingCl id launch) bothGraph = .ok im) ∧
    (∃ launch : Launcher Int, launch.Possible cspIterationCuda (fun group => group = fun _ => 0) ∧
      ∃ im, Par.labeledMap solve (fun _ => findLabelingCuda id launch) bothGraph = .ok im) := by
  obtain ⟨solve, h1, h2⟩ := seqSolver Int 1
  obtain ⟨n, hn⟩ := h2 _ _ bothSolved_eq
  obtain ⟨l1, p1, e1⟩ := possible_cl (conv := id) (allowed := fun group => group = fun _ => 0) rfl both_cl (by simp)
  obtain ⟨l2, p2, e2⟩ := possible_cuda (conv := id) (allowed := fun group => group = fun _ => 0) rfl both_cuda (by simp)
  obtain ⟨im1, i1, -⟩ := ending_ok e1
  obtain ⟨im2, i2, -⟩ := ending_ok e2
  refine ⟨bothGraph_fresh, ?_, solve, h1, ⟨l1, p1, im1, ?_⟩, ⟨l2, p2, im2, ?_⟩⟩
  · have hs := bothSolved_eq
    have : disparityMap 1 bothGraph = mapOf (fun c => findLabeling 1 c) bothSolved := by
      unfold disparityMap mapOf
      cases h : solvedGraph 1 bothGraph with
      | error e => rw [h] at hs; cases hs
      | ok c => rw [h] at hs; cases hs; rfl
    rw [this]
    exact ending_error both_cpu
  · rw [labeledMap_mapOf hn]
    exact i1
  · rw [labeledMap_mapOf hn]
    exact i2

/-! ## Non-vacuity of the theorems of `Props/Gpu.lean` -/

theorem stopDevice_ok : stopDevice.graph.Valid ∧ stopDevice.graph.Proper := by
  obtain ⟨⟨g1, b1⟩, hm, k1, k2, k3, -⟩ := chooseBestNode_mk missSolved_ok.1 missSolved_ok.2 (x := 0) (y := 0) (by decide) (by decide)
  have hst := stopDevice_eq
  rw [show (⟨0, 0⟩ : Pixel) = mkPixel 0 0 from rfl, hm] at hst
  cases hst
  exact ⟨k2, k1.proper missSolved_ok.2 fun x y d h => ((k3 x y d).1 h).1⟩

theorem stop_together : (stopDevice.outcome? cspIteration (fun _ => 0) (together 4 4)).map (fun m =>
    m.toOption.map (·.graph.nodesAvailability.toList)) =
      some (some [false, false, true, false, false, true, false, true, false, true, false, false]) := by decide +kernel

/-- C57 and C74: a launch by a single work group that removes nodes. -/
example : ∃ d', LaunchTo cspIteration (fun _ => 0) stopDevice d' ∧
    d'.graph.nodesAvailability ≠ stopDevice.graph.nodesAvailability := by
  have h := stop_together
  cases ho : stopDevice.outcome? cspIteration (fun _ => 0) (together 4 4) with
  | none => rw [ho] at h; cases h
  | some m =>
    rw [ho] at h
    have hp := Device.outcome?_possible ho
    cases m with
    | error e => cases h
    | ok d' =>
      obtain ⟨_, rfl, hl⟩ := hp
      refine ⟨d', hl, fun he => ?_⟩
      simp only [Option.map_some, Except.toOption, Option.some.injEq] at h
      rw [he] at h
      revert h
      decide

/-- C59, C75, C78, C80: a labeling found by a device. -/
example : ∃ find : ConstraintGraph Int → M (ConstraintGraph Int × Bool), Finder (D := Int) id (fun group => group = fun _ => 0) find ∧
    Faithful (D := Int) (id : Int → Int) ∧ OneGroup (fun group => group = fun _ => 0) ∧
    ∃ solve : Solver Int, solve.Possible 64 1 ∧ ∃ im, Par.labeledMap solve (fun _ => find) bothGraph = .ok im := by
  obtain ⟨-, -, solve, h1, ⟨launch, h2, h3⟩, -⟩ := C79_gpu_as_cpu_refuted
  exact ⟨_, .cl launch h2, Faithful.id, by rintro group rfl i j; rfl, solve, h1, h3⟩

theorem miss_cpu : (disparityMap 1 missGraph).toOption.map (·.data) = some #[2, 2, 1, 0] := by decide +kernel

theorem miss_together : ending (mapOf (findLabelingCl id (computed cspIteration (fun _ => 0) fun _ => together 4 4)) missSolved) =
    .inr [2, 2, 1, 0] := by decide +kernel

/-- C79, C80: the same map is found by the processor and by a device. -/
example : (disparityMap 1 missGraph).toOption.map (·.data) = some #[2, 2, 1, 0] ∧
    ∃ solve : Solver Int, solve.Possible 64 1 ∧ ∃ launch : Launcher Int, launch.Possible cspIteration (fun group => group = fun _ => 0) ∧
      ∃ im, Par.labeledMap solve (fun _ => findLabelingCl id launch) missGraph = .ok im ∧ im.data.toList = [2, 2, 1, 0] := by
  obtain ⟨solve, h1, h2⟩ := seqSolver Int 1
  obtain ⟨n, hn⟩ := h2 _ _ missSolved_eq
  obtain ⟨l, p, e⟩ := possible_cl (conv := id) (allowed := fun group => group = fun _ => 0) rfl miss_together (by simp)
  obtain ⟨im, i1, i2⟩ := ending_ok e
  exact ⟨miss_cpu, solve, h1, l, p, im, by rw [labeledMap_mapOf hn]; exact i1, i2⟩

end SP
