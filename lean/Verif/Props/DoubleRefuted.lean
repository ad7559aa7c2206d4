import Verif.Props.FloatDevice
/-!
# Refutations with the numbers of the program

What the program does with files of images, with `double` on the processor and `float` on a device. The claims are refuted with exact
numbers elsewhere; here nothing is replaced by exact numbers.
-/
namespace SP
open FloatOps ConstraintGraph Gpu
set_option maxRecDepth 1000000

/-- A world with two images. -/
def imagesWorld (left right : String) (solve : Solver Double) (openCL : Option (ConstraintGraph Double → M (ConstraintGraph Double × Bool))) :
    World Double where
  file path := if path = bytes "l" then some (bytes left) else if path = bytes "r" then some (bytes right) else none
  writable _ := true
  memory := 1000
  room _ := none
  solve := solve
  openCL := openCL
  cuda := none

/-- Options with this number of levels and these weights. -/
def imagesOptions (levels cleanness smoothness : String) (parallel : Option String) : Options :=
  { leftImage := some (bytes "l"), rightImage := some (bytes "r"), outputImage := some (bytes "o"), disparityLevels := some (bytes levels),
    cleanness := some (bytes cleanness), smoothness := some (bytes smoothness), parallel := parallel.map bytes }

theorem imagesWorld_reasonable (left right : String) (solve : Solver Double)
    (openCL : Option (ConstraintGraph Double → M (ConstraintGraph Double × Bool))) {jobs : UInt64} (h : jobs = 1 ∨ jobs = 2) :
    (imagesWorld left right solve openCL).Reasonable jobs := by
  refine ⟨show 1000 < 2147483648 by decide, ?_, ?_, fun _ => rfl⟩ <;> rcases h with rfl | rfl <;> decide

/-- The program with executions of `solve_csp` that are computed. -/
theorem refines_program_solve {left right : String} {solve solve' : Solver Double} (h : ∀ n c, Refines (· = .ub) (solve n c) (solve' n c))
    (o : Options) (hp : o.parallel = none) :
    Refines (· = .ub) (program (imagesWorld left right solve none) (.parsed o)) (program (imagesWorld left right solve' none) (.parsed o)) := by
  unfold program
  simp only
  cases o.outputImage <;> cases o.leftImage <;> cases o.rightImage <;> try exact .refl _
  rename_i output left' right'
  have e : ∀ solve : Solver Double, chooseParallelism (imagesWorld left right solve none) o.parallel = some ([], Par.labelCpu solve) := by
    intro solve
    rw [hp]
    rfl
  simp only [e]
  have hc : Refines (· = .ub) (compute (imagesWorld left right solve none) o (Par.labelCpu solve) left' right' output)
      (compute (imagesWorld left right solve' none) o (Par.labelCpu solve') left' right' output) := by
    unfold compute
    refine .bind (.refl _) fun g => .bind ?_ fun im => .refl _
    show Refines _ (Par.labeledMap solve (Par.labelCpu solve) g) (Par.labeledMap solve' (Par.labelCpu solve') g)
    unfold Par.labeledMap Par.labelCpu
    exact .bind (refines_solvedGraph h g) fun r => .bind (.bind (refines_findLabeling h _ _) fun r => .refl _) fun r => .refl _
  rcases hc with ⟨_, rfl, hc⟩ | hc
  · exact .inl ⟨_, rfl, by rw [hc]; rfl⟩
  · rw [hc]
    exact .refl _

/-- What is computed for an order of threads is what the program may do. -/
theorem program_in_order {left right : String} {o : Options} (hp : o.parallel = none) (order : Nat → List Nat)
    (ho : ∀ n, (order n).Nodup ∧ ∀ i, i ∈ order n ↔ i < 2) {out : Outcome}
    (h : program (imagesWorld left right (orderSolver 2 order) none) (.parsed o) = .ok out) :
    ∃ solve : Solver Double, solve.Possible 64 2 ∧ program (imagesWorld left right solve none) (.parsed o) = .ok out := by
  obtain ⟨solve, h1, h2⟩ := Solver.Possible.exists (F := Double) 64 2 order ho
  refine ⟨solve, h1, ?_⟩
  rcases refines_program_solve (left := left) (right := right) h2 o hp with ⟨e, rfl, h'⟩ | h'
  · rw [h'] at h; cases h
  · rw [h']; exact h

/-! ## One thread -/

theorem small_program : program (imagesWorld "P2 3 1 1 1 0 0" "P2 3 1 1 0 0 0" (fun _ => solveCsp 1) none)
    (.parsed (imagesOptions "2" "1" "2" none)) =
      .ok { exit := 0, err := [.logicError "Cannot find labeling. This should not ever happen. Refer to the developers."] } := by
  decide +kernel

/-- **C42** is false of the program with `double`: for images `1 0 0` and `0 0 0`, two levels, the default cleanness and smoothness 2 the program with
one thread ends with "Cannot find labeling" and writes nothing. -/
theorem C42_program_refuted : ∃ world : World Double, world.Reasonable 1 ∧ world.Runs 64 1 ∧ world.CpuOnly ∧
    program world (.parsed (imagesOptions "2" "1" "2" none)) =
      .ok { exit := 0, err := [.logicError "Cannot find labeling. This should not ever happen. Refer to the developers."] } :=
  ⟨_, imagesWorld_reasonable _ _ _ _ (.inl rfl), .inr rfl, ⟨rfl, rfl⟩, small_program⟩

/-! ## A device -/

theorem both_program_cpu (openCL : Option (ConstraintGraph Double → M (ConstraintGraph Double × Bool))) :
    program (imagesWorld "P2 4 2 10 3 2 4 1 0 1 4 2" "P2 4 2 10 2 2 3 3 3 2 2 1" (fun _ => solveCsp 1) openCL)
    (.parsed (imagesOptions "3" "1" "1" none)) =
      .ok { exit := 0, err := [.logicError "Cannot find labeling. This should not ever happen. Refer to the developers."] } := by
  show program (imagesWorld "P2 4 2 10 3 2 4 1 0 1 4 2" "P2 4 2 10 2 2 3 3 3 2 2 1" (fun _ => solveCsp 1) none)
    (.parsed (imagesOptions "3" "1" "1" none)) = _
  decide +kernel

theorem both_program_cl : program (imagesWorld "P2 4 2 10 3 2 4 1 0 1 4 2" "P2 4 2 10 2 2 3 3 3 2 2 1" (fun _ => solveCsp 1)
    (some (findLabelingCl (Ieee.convert : Double → Single) (computed cspIteration (fun _ => 0) fun _ => together 8 3))))
    (.parsed (imagesOptions "3" "1" "1" (some "CL"))) =
      .ok { exit := 0, out := [.openCL], written := some (bytes "o", bytes "P2\n4 2\n3\n1 2 1 0\n2 2 1 0\n") } := by decide +kernel

/-- **C79** is false of the program with `double` and `float`: a device, with a single work group, writes a map, and the processor writes nothing. -/
theorem C79_program_refuted : ∃ world : World Double, world.Reasonable 1 ∧ world.Runs 64 1 ∧
    world.Devices (Ieee.convert : Double → Single) (fun group => group = fun _ => 0) ∧
    program world (.parsed (imagesOptions "3" "1" "1" none)) =
      .ok { exit := 0, err := [.logicError "Cannot find labeling. This should not ever happen. Refer to the developers."] } ∧
    program world (.parsed (imagesOptions "3" "1" "1" (some "CL"))) =
      .ok { exit := 0, out := [.openCL], written := some (bytes "o", bytes "P2\n4 2\n3\n1 2 1 0\n2 2 1 0\n") } := by
  refine ⟨imagesWorld "P2 4 2 10 3 2 4 1 0 1 4 2" "P2 4 2 10 2 2 3 3 3 2 2 1" (fun _ => solveCsp 1)
    (some (findLabelingCl (Ieee.convert : Double → Single) (.ofTurns cspIteration (fun _ => 0) fun _ => together 8 3))),
    imagesWorld_reasonable _ _ _ _ (.inl rfl), .inr rfl, ⟨fun f hf => ?_, fun f hf => by cases hf⟩, both_program_cpu _, ?_⟩
  · cases hf
    exact ⟨_, Launcher.ofTurns_possible (allowed := fun group => group = fun _ => 0) rfl _, .inl rfl⟩
  · have h := both_program_cl
    rcases refines_program (F := Double) (D := Single)
      (world := imagesWorld "P2 4 2 10 3 2 4 1 0 1 4 2" "P2 4 2 10 2 2 3 3 3 2 2 1" (fun _ => solveCsp 1)
        (some (findLabelingCl (Ieee.convert : Double → Single) (.ofTurns cspIteration (fun _ => 0) fun _ => together 8 3))))
      (computed_refines (kernel := cspIteration) (group := fun _ => 0) (turns := fun _ => together 8 3)) rfl rfl
      (imagesOptions "3" "1" "1" (some "CL")) rfl with ⟨e, -, he⟩ | he
    · exact absurd (he.symm.trans h) (by simp)
    · exact he.trans h

/-! ## Two threads -/

theorem race_program : program (imagesWorld "P2 4 2 5 2 4 0 3 1 5 5 2" "P2 4 2 5 3 1 0 4 2 0 4 0" (orderSolver 2 fun n => if n < 3 then [0, 1] else [1, 0]) none)
    (.parsed (imagesOptions "4" "1" "2" none)) =
      .ok { exit := 0, err := [.logicError "Cannot solve CSP problem. This should not ever happen. Refer to the developers."] } := by decide +kernel

/-- **C68** is false of the program with `double`: with two threads it may end with "Cannot solve CSP problem". -/
theorem C68_program_refuted : ∃ world : World Double, world.Reasonable 2 ∧ world.Runs 64 2 ∧ world.CpuOnly ∧
    program world (.parsed (imagesOptions "4" "1" "2" none)) =
      .ok { exit := 0, err := [.logicError "Cannot solve CSP problem. This should not ever happen. Refer to the developers."] } := by
  obtain ⟨solve, h1, h2⟩ := program_in_order rfl _ (by
    intro n
    split
    · exact ⟨by decide, by intro i; simp; omega⟩
    · exact ⟨by decide, by intro i; simp; omega⟩) race_program
  exact ⟨_, imagesWorld_reasonable _ _ _ _ (.inr rfl), .inl h1, ⟨rfl, rfl⟩, h2⟩

theorem timing_program : program (imagesWorld "P2 3 2 9 0 1 1 1 0 2" "P2 3 2 9 1 0 1 0 0 2" (orderSolver 2 fun _ => [0, 1]) none)
    (.parsed (imagesOptions "2" "1" "2" none)) =
      .ok { exit := 0, err := [.logicError "Cannot find labeling. This should not ever happen. Refer to the developers."] } := by decide +kernel

theorem timing_program' : program (imagesWorld "P2 3 2 9 0 1 1 1 0 2" "P2 3 2 9 1 0 1 0 0 2" (orderSolver 2 fun _ => [1, 0]) none)
    (.parsed (imagesOptions "2" "1" "2" none)) =
      .ok { exit := 0, written := some (bytes "o", bytes "P2\n3 2\n2\n0 0 0\n0 0 0\n") } := by decide +kernel

/-- **C67** is false of the program with `double`: with the same files, options and two threads the program writes a map if in each round of `solve_csp` the second
thread is faster, and it ends with "Cannot find labeling" if the first one is. -/
theorem C67_program_refuted : ∃ left right o, ∃ solve solve' : Solver Double, solve.Possible 64 2 ∧ solve'.Possible 64 2 ∧
    (imagesWorld left right solve none).Reasonable 2 ∧ (imagesWorld left right solve' none).Reasonable 2 ∧
    (∃ text, program (imagesWorld left right solve none) (.parsed o) = .ok { exit := 0, written := some (bytes "o", text) }) ∧
    program (imagesWorld left right solve' none) (.parsed o) =
      .ok { exit := 0, err := [.logicError "Cannot find labeling. This should not ever happen. Refer to the developers."] } := by
  obtain ⟨s, h1, h2⟩ := program_in_order rfl _ (fun _ => ⟨by decide, by intro i; simp; omega⟩) timing_program'
  obtain ⟨s', h1', h2'⟩ := program_in_order rfl _ (fun _ => ⟨by decide, by intro i; simp; omega⟩) timing_program
  exact ⟨_, _, _, s, s', h1, h1', imagesWorld_reasonable _ _ _ _ (.inr rfl), imagesWorld_reasonable _ _ _ _ (.inr rfl), ⟨_, h2⟩, h2'⟩

/-! ## Going on forever -/

/-- The graph `loopGraph` with `double`. -/
def loopDouble : ConstraintGraph Double :=
  let g := freshGraph (img 2 2 5 [5, 0, 5, 0]) (img 2 2 5 [0, 0, 0, 0]) 2 (ofNat 1) (ofNat 1)
  okD ⟨g, ⟨g, #[], #[]⟩, #[], zero⟩ (do let p ← mkLowestPenalties g; mkConstraintGraph g p (ofNat 0))

/-- The same graph with two nodes left. -/
def loopDoubleNext : ConstraintGraph Double := loopDouble.withFlags fun i => i == 4 || i == 6

theorem loopDouble_diverges : Diverges 64 2 2 loopDouble := by
  have h1 : endsWith loopDouble loopTurns loopDoubleNext.nodesAvailability = true := by decide +kernel
  have h2 : endsWith loopDoubleNext loopTurns' loopDoubleNext.nodesAvailability = true := by decide +kernel
  refine ⟨fun k => if k = 0 then loopDouble else loopDoubleNext, rfl, fun k => ?_⟩
  by_cases hk : k = 0
  · subst hk
    exact round_of_endsWith (by decide) h1
  · simp only [if_neg hk, Nat.add_eq_zero_iff, Nat.one_ne_zero, and_false, if_false]
    exact round_of_endsWith (by decide) h2

/-- Results of `solve_csp` by two threads: the graph `loopDouble` is never solved, others are. -/
def loopDoubleSolver (solve : Solver Double) : Solver Double := fun n c => if c = loopDouble then .error .nonterm else solve n c

theorem loop_program : program (imagesWorld "P2 2 2 5 5 0 5 0" "P2 2 2 5 0 0 0 0" (loopDoubleSolver (orderSolver 2 fun _ => [0, 1])) none)
    (.parsed (imagesOptions "2" "1" "1" none)) = .error .nonterm := by decide +kernel

/-- **C61** is false of the program with `double`: with two threads it may go on forever. -/
theorem C61_double_refuted : ∃ world : World Double, world.Reasonable 2 ∧ world.Runs 64 2 ∧ world.CpuOnly ∧
    program world (.parsed (imagesOptions "2" "1" "1" none)) = .error .nonterm := by
  obtain ⟨solve, h1, h2⟩ := Solver.Possible.exists (F := Double) 64 2 (fun _ => [0, 1]) (fun _ => ⟨by decide, by intro i; simp; omega⟩)
  have hposs : (loopDoubleSolver solve).Possible 64 2 := by
    intro n c
    unfold loopDoubleSolver
    split
    · rename_i h
      subst h
      exact .inl ⟨rfl, loopDouble_diverges⟩
    · exact h1 n c
  refine ⟨_, imagesWorld_reasonable "P2 2 2 5 5 0 5 0" "P2 2 2 5 0 0 0 0" (loopDoubleSolver solve) none (.inr rfl), .inl hposs, ⟨rfl, rfl⟩, ?_⟩
  have href : ∀ n c, Refines (· = .ub) (loopDoubleSolver solve n c) (loopDoubleSolver (orderSolver 2 fun _ => [0, 1]) n c) := by
    intro n c
    unfold loopDoubleSolver
    split
    · exact .refl _
    · exact h2 n c
  rcases refines_program_solve (left := "P2 2 2 5 5 0 5 0") (right := "P2 2 2 5 0 0 0 0") href (imagesOptions "2" "1" "1" none) rfl with ⟨e, rfl, h'⟩ | h'
  · exact absurd (h'.symm.trans loop_program) (by simp)
  · exact h'.trans loop_program

end SP
