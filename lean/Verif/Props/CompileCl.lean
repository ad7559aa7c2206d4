import Verif.Model.CompileCl
import Verif.Spec.Pgm
/-!
# C86: the source of the OpenCL program
-/
namespace SP

/-- Functions that may run when the kernel `start` runs: itself and all functions called by a function that may run. -/
inductive MayRun (functions : List DeviceFunction) (start : String) : String → Prop
  | self : MayRun functions start start
  | call {name : String} {f : DeviceFunction} (run : MayRun functions start f.name) (mem : f ∈ functions) (calls : name ∈ f.calls) :
      MayRun functions start name

/-- **C86**, the list of files: whatever function may run when a kernel created by the host runs, it has exactly one definition among the functions of
the listed files. -/
theorem C86_defined_once (start name : String) (hs : start ∈ createdKernels) (h : MayRun deviceFunctions start name) :
    ∃! f, f ∈ programFunctions sourceFiles ∧ f.name = name := by
  have unique : ∀ f ∈ programFunctions sourceFiles, ∀ g ∈ programFunctions sourceFiles, f.name = g.name → f = g := by decide +kernel
  have closed : ∀ f ∈ deviceFunctions, ∀ n ∈ f.calls, ∃ g ∈ programFunctions sourceFiles, g.name = n := by decide +kernel
  have kernels : ∀ n ∈ createdKernels, ∃ g ∈ programFunctions sourceFiles, g.name = n := by decide +kernel
  have found : ∃ g ∈ programFunctions sourceFiles, g.name = name := by
    cases h with
    | self => exact kernels _ hs
    | call _ mem calls => exact closed _ mem _ calls
  obtain ⟨g, hg, hn⟩ := found
  exact ⟨g, ⟨hg, hn⟩, fun f ⟨hf, hfn⟩ => unique f hf g hg (hfn.trans hn.symm)⟩

/-- No function of the program calls itself through others, as OpenCL demands: functions are ranked so that a call descends. -/
theorem C86_no_recursion : ∃ rank : String → ℕ, ∀ f ∈ programFunctions sourceFiles, ∀ n ∈ f.calls, rank n < rank f.name := by
  refine ⟨fun n =>
    if n ∈ ["csp_iteration", "choose_best_node_gpu"] then 8
    else if n ∈ ["csp_solution_iteration_gpu", "csp_solution_iteration"] then 7
    else if n ∈ ["csp_process_pixel"] then 6
    else if n ∈ ["should_remove_node", "calculate_lowest_neighborhood_penalty_slow", "calculate_lowest_neighborhood_penalty"] then 5
    else if n ∈ ["is_edge_available", "choose_best_node", "calculate_lowest_neighborhood_penalty_fast", "calculate_lowest_pixel_penalty"] then 4
    else if n ∈ ["edge_penalty", "node_penalty", "lowest_neighborhood_penalty",
      "lowest_neighborhood_penalty_fast", "edge_exists", "populate_structures_gpu"] then 3
    else if n ∈ ["reparametrization_value", "reparametrization_value_slow", "reparametrization_value_fast", "neighborhood_index",
      "neighborhood_index_slow", "neighborhood_exists", "is_node_available", "make_node_available", "make_node_unavailable", "pixel_value",
      "lowest_pixel_penalty"] then 2
    else if n ∈ ["reparametrization_index", "reparametrization_index_slow"] then 1
    else 0, ?_⟩
  decide +kernel

/-- The chain from the kernel to the arithmetic of indices. -/
example : MayRun deviceFunctions "csp_iteration" "should_remove_node" := by
  have h1 : MayRun deviceFunctions "csp_iteration" "csp_solution_iteration_gpu" :=
    .call (f := ⟨"csp_iteration", "lib/solve_csp.cl", ["populate_structures_gpu", "csp_solution_iteration_gpu"]⟩) .self (by decide +kernel)
      (by decide +kernel)
  have h2 : MayRun deviceFunctions "csp_iteration" "csp_process_pixel" :=
    .call (f := ⟨"csp_solution_iteration_gpu", "lib/solve_csp.cl", ["csp_process_pixel"]⟩) h1 (by decide +kernel) (by decide +kernel)
  exact .call (f := ⟨"csp_process_pixel", "lib/constraint_graph.cpp", ["should_remove_node", "make_node_unavailable"]⟩) h2 (by decide +kernel)
    (by decide +kernel)

/-- Without the last file the kernels are missing. -/
example : ¬ ∃ f, f ∈ programFunctions sourceFiles.dropLast ∧ f.name = "csp_iteration" := by
  have : ∀ f ∈ programFunctions sourceFiles.dropLast, f.name ≠ "csp_iteration" := by decide +kernel
  rintro ⟨f, hf, hn⟩
  exact this f hf hn

theorem concatenateFiles_eq (file : Text → Option Text) (names : List Text) :
    concatenateFiles file names = (names.map fun n => (file n).getD []).flatten := by
  have key : ∀ (l : List Text) (r : Text), l.foldl (fun result filename => result ++ fileContents file filename) r =
      r ++ (l.map fun n => (file n).getD []).flatten := by
    intro l
    induction l with
    | nil => simp
    | cons a l ih =>
      intro r
      rw [List.foldl_cons, ih, List.map_cons, List.flatten_cons, List.append_assoc]
      congr 2
      unfold fileContents
      cases file a <;> rfl
  exact key names []

/-- **C86**, what holds. Full statement: the OpenCL program is built from the contents of all listed files, one after another in the order of the
list, and it is not built if some of them cannot be opened. The second part is false (`C86_missing_files_refuted`). -/
theorem C86_concatenation_partial {α : Type} (build : Text → M α) (file : Text → Option Text) (names contents : List Text)
    (h : names.map file = contents.map some) :
    createProgram build file names = build contents.flatten ∧ ∀ name, createProgramOne build file name = build ((file name).getD []) := by
  refine ⟨?_, fun name => ?_⟩
  · unfold createProgram
    rw [concatenateFiles_eq]
    have : (names.map fun n => (file n).getD []) = contents := by
      have := congrArg (List.map fun t : Option Text => t.getD []) h
      simpa [List.map_map, Function.comp_def] using this
    rw [this]
  · unfold createProgramOne createProgram
    rw [concatenateFiles_eq]
    simp

/-- All eight files are there. -/
example : (sourceFiles.map bytes).map (fun n => if n ∈ sourceFiles.map bytes then some n else none) = (sourceFiles.map bytes).map some := by
  decide +kernel

/-- **C86** is false: a missing file is the same as an empty one; outside of the directory of the project the program is built from nothing. -/
theorem C86_missing_files_refuted {α : Type} (build : Text → M α) (file : Text → Option Text) (names : List Text) :
    (∀ missing, createProgram build (fun n => if n = missing then none else file n) names =
      createProgram build (fun n => if n = missing then some [] else file n) names) ∧
    createProgram build (fun _ => none) names = build [] := by
  unfold createProgram
  constructor
  · intro missing
    rw [concatenateFiles_eq, concatenateFiles_eq]
    congr 3
    funext n
    by_cases h : n = missing <;> simp [h]
  · rw [concatenateFiles_eq]
    congr 1
    simp

end SP
