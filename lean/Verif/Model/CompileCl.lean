import Verif.Model.Main
/-!
# `lib/compile_cl.cpp`, `include/gpu_csp.hpp:22-31`: the source of the OpenCL program

`program::build_with_source` belongs to the library; it is a function from the source to the behaviour of the device, or an exception.
-/
namespace SP
open FloatOps
variable {F : Type} [FloatOps F]

/-- `SOURCE_FILES`, `gpu_csp.hpp:22-31`; paths are relative to the working directory. -/
def sourceFiles : List String :=
  ["lib/constraint_graph.cpp", "lib/lowest_penalties.cpp", "lib/labeling_finder.cpp", "lib/disparity_graph.cpp", "lib/image.cpp",
    "lib/indexing_checks.cpp", "lib/indexing.cpp", "lib/solve_csp.cl"]

/-- `ifstream` and a pair of `istreambuf_iterator`, `compile_cl.cpp:41-45`: a file that cannot be opened has no characters. -/
def fileContents (file : Text → Option Text) (name : Text) : Text :=
  match file name with
  | some text => text
  | none => []

/-- `concatenate_files`, `compile_cl.cpp:36-48`. -/
def concatenateFiles (file : Text → Option Text) (filenames : List Text) : Text :=
  filenames.foldl (fun result filename => result ++ fileContents file filename) []

/-- `create_program`, `compile_cl.cpp:26-34`, called in `gpu_csp.cpp:21-28`. -/
def createProgram {α : Type} (build : Text → M α) (file : Text → Option Text) (filenames : List Text) : M α :=
  build (concatenateFiles file filenames)

/-- `create_program` for one file, `compile_cl.cpp:21-24`. -/
def createProgramOne {α : Type} (build : Text → M α) (file : Text → Option Text) (filename : Text) : M α :=
  createProgram build file [filename]

/-- A function of the OpenCL program: its name, the file with its definition, the functions called in its body (built-in functions of OpenCL and
macros aside). -/
structure DeviceFunction where
  name : String
  file : String
  calls : List String
deriving DecidableEq

/-- What is left of the sources under `__OPENCL_C_VERSION__` (constructors, `solve_csp` and the greater part of `labeling_finder.cpp` are for the
host only: `constraint_graph.cpp:43-113,355-375`, `lowest_penalties.cpp:27-95`, `labeling_finder.cpp:28-257,321-411`,
`disparity_graph.cpp:46-182`). Lines of definitions are on the right. -/
def deviceFunctions : List DeviceFunction :=
  [⟨"make_node_available", "lib/constraint_graph.cpp", ["node_index"]⟩, -- 115-122
    ⟨"make_node_unavailable", "lib/constraint_graph.cpp", ["node_index"]⟩, -- 124-131
    ⟨"make_all_nodes_unavailable", "lib/constraint_graph.cpp", []⟩, -- 133-146
    ⟨"is_node_available", "lib/constraint_graph.cpp", ["node_index"]⟩, -- 148-156
    ⟨"is_edge_available", "lib/constraint_graph.cpp",
      ["edge_penalty", "lowest_neighborhood_penalty", "is_node_available", "edge_exists"]⟩, -- 158-170
    ⟨"should_remove_node", "lib/constraint_graph.cpp",
      ["is_node_available", "neighborhood_exists_fast", "neighbor_by_index", "is_edge_available"]⟩, -- 172-240
    ⟨"check_nodes_left", "lib/constraint_graph.cpp", []⟩, -- 242-259
    ⟨"csp_process_pixel", "lib/constraint_graph.cpp", ["should_remove_node", "make_node_unavailable"]⟩, -- 261-285
    ⟨"csp_solution_iteration", "lib/constraint_graph.cpp",
      ["csp_process_pixel", "is_node_available", "check_nodes_left", "make_all_nodes_unavailable"]⟩, -- 287-353
    ⟨"calculate_lowest_pixel_penalty", "lib/lowest_penalties.cpp", ["node_penalty"]⟩, -- 97-119
    ⟨"calculate_lowest_neighborhood_penalty", "lib/lowest_penalties.cpp", ["calculate_lowest_neighborhood_penalty_fast"]⟩, -- 121-139
    ⟨"calculate_lowest_neighborhood_penalty_fast", "lib/lowest_penalties.cpp", ["edge_penalty"]⟩, -- 141-180
    ⟨"calculate_lowest_neighborhood_penalty_slow", "lib/lowest_penalties.cpp",
      ["neighbor_by_index", "calculate_lowest_neighborhood_penalty_fast"]⟩, -- 182-200
    ⟨"lowest_pixel_penalty", "lib/lowest_penalties.cpp", ["pixel_index"]⟩, -- 202-208
    ⟨"lowest_neighborhood_penalty_fast", "lib/lowest_penalties.cpp", ["neighborhood_index"]⟩, -- 210-219
    ⟨"lowest_neighborhood_penalty", "lib/lowest_penalties.cpp", ["neighborhood_index_slow"]⟩, -- 221-229
    ⟨"choose_best_node", "lib/labeling_finder.cpp", ["is_node_available", "node_penalty", "make_node_unavailable"]⟩, -- 260-319
    ⟨"edge_penalty", "lib/disparity_graph.cpp", ["reparametrization_value_slow", "reparametrization_value"]⟩, -- 184-191
    ⟨"node_penalty", "lib/disparity_graph.cpp", ["pixel_value", "reparametrization_value_fast"]⟩, -- 193-206
    ⟨"image_valid", "lib/image.cpp", []⟩, -- 33-47
    ⟨"neighborhood_exists", "lib/indexing_checks.cpp", ["neighborhood_exists_fast", "neighbor_index"]⟩, -- 38-49
    ⟨"neighborhood_exists_fast", "lib/indexing_checks.cpp", []⟩, -- 51-65
    ⟨"node_exists", "lib/indexing_checks.cpp", []⟩, -- 67-78
    ⟨"edge_exists", "lib/indexing_checks.cpp", ["node_exists", "neighborhood_exists"]⟩, -- 80-115
    ⟨"pixel_index", "lib/indexing.cpp", []⟩, -- 36-39
    ⟨"pixel_value", "lib/indexing.cpp", ["pixel_index"]⟩, -- 41-44
    ⟨"neighbor_index", "lib/indexing.cpp", []⟩, -- 46-72
    ⟨"reparametrization_index_fast", "lib/indexing.cpp", []⟩, -- 74-91
    ⟨"reparametrization_index", "lib/indexing.cpp", ["reparametrization_index_fast", "neighbor_index"]⟩, -- 93-104
    ⟨"reparametrization_index_slow", "lib/indexing.cpp", ["reparametrization_index_fast", "neighbor_index"]⟩, -- 106-116
    ⟨"reparametrization_value", "lib/indexing.cpp", ["reparametrization_index"]⟩, -- 118-125
    ⟨"reparametrization_value_slow", "lib/indexing.cpp", ["reparametrization_index_slow"]⟩, -- 127-133
    ⟨"reparametrization_value_fast", "lib/indexing.cpp", ["reparametrization_index_fast"]⟩, -- 135-144
    ⟨"node_index", "lib/indexing.cpp", []⟩, -- 146-150
    ⟨"neighborhood_index_fast", "lib/indexing.cpp", []⟩, -- 152-160
    ⟨"neighborhood_index", "lib/indexing.cpp", ["neighborhood_index_fast", "neighbor_index"]⟩, -- 162-173
    ⟨"neighborhood_index_slow", "lib/indexing.cpp", ["neighborhood_index_fast", "neighbor_index"]⟩, -- 175-185
    ⟨"neighbor_by_index", "lib/indexing.cpp", []⟩, -- 187-209
    ⟨"populate_structures_gpu", "lib/solve_csp.cl", []⟩, -- 10-52
    ⟨"csp_solution_iteration_gpu", "lib/solve_csp.cl", ["csp_process_pixel"]⟩, -- 54-72
    ⟨"csp_iteration", "lib/solve_csp.cl", ["populate_structures_gpu", "csp_solution_iteration_gpu"]⟩, -- 74-127
    ⟨"choose_best_node_gpu", "lib/solve_csp.cl", ["populate_structures_gpu", "choose_best_node"]⟩] -- 129-175

/-- The functions in the listed files. -/
def programFunctions (files : List String) : List DeviceFunction :=
  deviceFunctions.filter fun f => files.contains f.file

/-- Names given to `create_kernel`, `gpu_csp.cpp:74,92-94`. -/
def createdKernels : List String := ["csp_iteration", "choose_best_node_gpu"]

end SP
