# Formal model of char-lie/stereo-parallel in Lean 4

## 1. Shape of the model

* `lean/Verif/Model/*.lean` — the code model. One Lean definition per C++ function, with the file and lines it models
  in its comment. `ULONG` is `UInt64` (wrap-around included), `std::vector` is `Array`, a function that may touch
  memory or throw returns `M α = Except Err α`; `Err.ub` is undefined behaviour (an index outside a vector),
  `Err.nonterm` is "this loop does not end", `Err.exc e` is a thrown C++ exception. `FLOAT` is an arbitrary type
  `F` with operations `FloatOps F` (add, sub, mul, conversion, comparisons) about which nothing is assumed.
* `lean/Verif/Spec/*.lean` — specification vocabulary, stated over natural numbers and sets of nodes, without loops.
* `lean/Verif/Lemmas/*.lean` — proofs that connect the two.
* `lean/Verif/Props/*.lean` — the property theorems `C01_…`, … and beside each a non-vacuity `example`.
* C loops are one combinator `cfor` (start, condition, step, body with break) with a fuel argument; running out of fuel
  is the distinct outcome `nonterm`, and the safety theorems show it never happens on the inputs they cover.

### Floating point

`LawfulFloat F` collects the order laws used by a theorem (total preorder, subtraction is monotone in its first argument,
`a - a` is zero, products/squares of non-negatives are non-negative, adding zero changes nothing). They hold for exact
arithmetic and for any monotone rounding without NaN; they fail for NaN. Instances are given (`Int`, `ℚ`, rationals rounded by any
monotone rounding, numbers with few digits), so no theorem is vacuous. Theorems that need exact arithmetic (C13, C14, C15) are about
the instance built from an ordered field. `NanInt` (integers with NaN) is used for counterexamples.

`Model/Double.lean` has the numbers the program is really compiled with: `Double` (`FLOAT` of the host, `types.hpp:65`) and `Single` (`FLOAT`
of devices, `types.hpp:88-107`) are numbers of IEEE 754 with rounding to the nearest even, signed zeros, infinities and NaN. They have no laws
of order. `Carrier φ P k` (`Lemmas/TransferMain.lean`) says that a map of one arithmetic to another keeps what is computed from integers up to
`2^k`; `program_transfer` proves that the program then does the same in both. Finite `double`s with saturating rounding are lawful and carry
the program with `Double` for all inputs (C90, C91), rationals are carried as long as nothing is rounded (C92, C93). So what is proved for
lawful arithmetics holds for `double`.

### Threads (OpenMP)

`Model/Parallel.lean`: `csp_solution_iteration` of one worker is a program (`Prog`) whose steps are single accesses to memory.
Words of memory hold `B` flags each: `B = 64` is `std::vector<bool>`, where writing of a flag is a load of the word and a store of the
word; `B = 1` is a flag with a word of its own. For each word the
memory keeps the list of all values stored to it; each worker has seen a part of the list. A load returns any value not older than
what the worker has seen of this word, so that stale values are allowed and accesses to different words are not ordered; a store
appends a value. With `fresh` a load returns the last value (sequential consistency); refutations are given by such executions, positive
theorems are about all of them. `RoundTo`, `LoopTo`,
`SolveTo` are the executions of `#pragma omp parallel`, the `while` loop of `solve_csp`, and `solve_csp`. A `Solver` is any function
that chooses one of these executions for each call; `Possible B jobs solver` says that it does so. So "for all solvers that are
possible" is "for all schedules".

### GPU

`Model/Gpu.lean` uses the same steps for work items and adds barriers: items of a group meet at a barrier, and it is an error if some of
them have ended. A `Launcher` is any function that chooses an outcome of each launch of the kernel; groups of items are arbitrary as
far as `allowed` permits (one group for all, any division in groups). Numbers are
converted by an arbitrary `conv : F → D`; theorems that need it suppose `Faithful conv`.

### The program

`Model/Main.lean`: `program world options` is `main` after parsing of the command line. `World` is everything outside: files, memory,
the solver (see above), what happens on devices.

## 2. Trusted base

* The kernel of Lean 4.33.0 and Mathlib (a few modules of it, as compiled in this sandbox).
* The axioms listed below, which are those of Lean itself: `propext`, `Classical.choice`, `Quot.sound`. There are no axioms of our own,
  no `sorry`, no `native_decide`, no `bv_decide`. Concrete witnesses are checked by `decide +kernel`, that is, by the kernel.
* That the model says what the code does. It was written by reading of `/repo`; each definition cites the lines. Nothing was executed.

### Axioms of each theorem

<!-- axioms -->
* none (5 theorems): `C09_short_data_read_out_of_bounds`, `C17_left_neighborhood_refuted`, `C64_number_options_refuted`, `C84_names`, `C86_defined_once`
* `propext` (16 theorems): `C10_nan_weights_accepted`, `C115_only_output`, `C115_origin`, `C115_same_file_twice`, `C115_session`, `C40_negative_penalties_refuted`, `C48_absent_image`, `C54_no_parameters_refuted`, `C55_missing_file_refuted`, `C55_missing_images_refuted`, `C55_status_partial`, `C63_error_stream_tells_partial`, `C63_unwritable_output_refuted`, `C86_no_recursion`, `C89_full_device_refuted`, `C89_whole_file_partial`
* `propext`, `Quot.sound` (37 theorems): `C09_image_valid_exact`, `C09_large_image_never_validated`, `C102_calm`, `C102_prepare`, `C103_label`, `C104_lighter`, `C104_negative`, `C107_directory`, `C107_no_error`, `C113_best_map_partial`, `C115_again`, `C115_any_output`, `C115_only_inputs`, `C115_order`, `C115_troubled`, `C115_unchanged`, `C12_edge_penalty_formula`, `C12_node_penalty_formula`, `C13_edge_penalty_symmetric`, `C21_make_node_available`, `C21_make_node_unavailable`, `C46_larger_values_not_read_back`, `C47_larger_values_long_line`, `C48_invalid_image`, `C49_adjacent_comment_refuted`, `C50_superfluous_refuted`, `C51_too_large_refuted`, `C53_isspace_refuted`, `C53_wrapped_size_refuted`, `C54_help_never_printed`, `C55_status_exact_partial`, `C64_number_exact_partial`, `C71_whole`, `C72_technology`, `C83_kernels_race_refuted`, `C86_concatenation_partial`, `C86_missing_files_refuted`
* `propext`, `Classical.choice`, `Quot.sound` (327 theorems): `C01_pixel_index_bijective`, `C02_allocated`, `C02_node_index_bijective`, `C03_allocated`, `C03_reparametrization_index_bijective`, `C04_allocated`, `C04_neighborhood_index_bijective`, `C05_neighbor_numbering`, `C06_neighborhood_exists_iff`, `C06_neighborhood_exists_symmetric`, `C07_node_exists_iff`, `C08_edge_exists_iff`, `C08_edge_exists_symmetric`, `C100_found_partial`, `C100_found_refuted`, `C101_device`, `C101_equal_images`, `C101_perfect`, `C101_perfect_exact`, `C101_program`, `C101_zeros`, `C102_assert`, `C102_failures`, `C102_failures_32`, `C102_goes_on`, `C102_written`, `C103_candidates`, `C103_program`, `C103_rounds`, `C103_search`, `C103_solved`, `C104_any_arithmetic`, `C104_in_order`, `C104_program`, `C104_same_file`, `C105_best_map`, `C105_ratio_device_partial`, `C105_ratio_partial`, `C105_ratio_refuted`, `C106_enough`, `C106_memory`, `C106_small`, `C106_too_long`, `C106_too_long_example`, `C106_written`, `C107_image`, `C107_read_error`, `C107_stream`, `C108_best_map`, `C108_powers`, `C108_powers_contracted`, `C109_exact_device`, `C109_float`, `C109_flushing`, `C10_constructor_accepts`, `C10_constructor_establishes_invariant`, `C10_constructor_rejects`, `C10_reparametrization_size_wraps`, `C110_near_optimal_flushing`, `C111_best_map`, `C111_ends`, `C111_no_wrong_map`, `C111_outcome`, `C111_source`, `C112_best_map`, `C112_equal_rows`, `C112_equal_rows_device`, `C112_rows`, `C112_written`, `C113_upside_down_partial`, `C113_upside_down_refuted`, `C114_double`, `C114_ends_after`, `C114_every_round`, `C114_in_order`, `C114_no_change`, `C114_program`, `C114_reproduced`, `C114_threads`, `C115_map_as_image`, `C116_limits`, `C116_one_column`, `C116_plain_rows`, `C117_best_map_partial`, `C117_more_levels_device_partial`, `C117_more_levels_partial`, `C117_more_levels_refuted`, `C118_best_map`, `C118_not_found`, `C118_other_rows`, `C118_rearranged`, `C118_rearranged_device`, `C119_neighbors`, `C119_neighbors_device`, `C119_neighbors_device_exact`, `C119_neighbors_exact`, `C119_not_found`, `C11_memory_safe`, `C11_memory_safe_fresh`, `C120_best_map`, `C120_found_device`, `C120_found_map`, `C120_found_row`, `C120_program`, `C120_program_device`, `C120_strong_not_found`, `C120_two_levels`, `C120_two_levels_device`, `C120_two_levels_exact`, `C121_one_row`, `C121_one_row_threads`, `C121_threshold_in_turn`, `C121_threshold_of_rows`, `C122_cuda`, `C122_find`, `C122_find_32`, `C122_launch_32`, `C122_launch_cl`, `C122_launch_cuda`, `C122_program`, `C122_program_32`, `C123_not_worse`, `C123_not_worse_device`, `C123_not_worse_device_exact`, `C123_not_worse_exact`, `C123_two_maps`, `C124_found_map`, `C124_program`, `C124_program_device`, `C124_shift`, `C124_shift_device`, `C124_shift_device_exact`, `C124_shift_exact`, `C125_clear`, `C125_clear_device`, `C125_clear_device_exact`, `C125_clear_exact`, `C125_found_map`, `C125_program`, `C125_program_device`, `C126_noise`, `C126_noise_device`, `C126_noise_device_exact`, `C126_noise_exact`, `C126_program`, `C126_program_device`, `C127_reliable`, `C127_reliable_device`, `C127_reliable_device_exact`, `C127_reliable_exact`, `C12_constructor_makes_fresh_graph`, `C14_energy_invariant`, `C15_lower_bound`, `C16_lowest_pixel_penalty`, `C17_lowest_neighborhood_penalty_fresh`, `C17_lowest_neighborhood_penalty_partial`, `C17_variants`, `C18_start_nodes`, `C19_edges_monotone`, `C19_nodes_monotone`, `C19_solution_monotone`, `C20_negative_threshold`, `C20_nonnegative_threshold`, `C21_make_all_nodes_unavailable`, `C22_is_edge_available`, `C23_should_remove_node`, `C24_process_pixel`, `C24_process_pixel_idempotent`, `C25_iteration_exact_partial`, `C25_iteration_result_partial`, `C25_iteration_result_refuted`, `C26_solve_terminates`, `C27_solve_sound`, `C28_unsolvable_correct`, `C29_labeling_exists_refuted`, `C29_pixels_alive_partial`, `C30_arc_consistency_partial`, `C30_arc_consistency_refuted`, `C30_one_sweep_partial`, `C31_fixpoint_reached`, `C31_fixpoint_unique`, `C32_arc_consistency_decides`, `C32_fixpoint_decides`, `C33_nodes_stay`, `C33_rounds_finite`, `C33_solutions_kept`, `C34_fetch_pixel`, `C35_fetch_edge_partial`, `C35_left_neighborhood_refuted`, `C36_fetch_all`, `C36_fetch_all_fresh`, `C37_bisection`, `C38_found_threshold_solvable`, `C39_minimal_threshold_partial`, `C39_minimal_threshold_refuted`, `C40_choose_best_partial`, `C40_choose_one_partial`, `C41_labeling_consistent`, `C42_best_labeling_found_partial`, `C42_labeling_found_refuted`, `C42_program_refuted`, `C43_disparity_map`, `C43_map_valid`, `C44_ambiguity_refuted`, `C45_map_consistent`, `C46_round_trip`, `C47_short_lines`, `C48_valid_image_written`, `C49_layout_irrelevant_partial`, `C49_layouts_agree_partial`, `C50_failed_read_partial`, `C51_accepted_exactly`, `C51_malformed_partial`, `C51_never_accepted`, `C52_superfluous_refused`, `C52_trailing_exact`, `C52_trailing_never_accepted`, `C53_read_ends`, `C53_read_safe_partial`, `C53_wrapped_size_always`, `C54_help_option_refuted`, `C56_pixels`, `C57_fixed_point`, `C58_barriers_partial`, `C58_barriers_refuted`, `C59_map_consistent`, `C60_map_optimal`, `C61_double_refuted`, `C61_in_order_partial`, `C61_program_safe_partial`, `C61_program_safe_refuted`, `C61_threads_partial`, `C62_same_file`, `C62_written_file`, `C63_cuda_failure_refuted`, `C64_number_options_partial`, `C65_outside_bound_misses_rows`, `C65_round_covers`, `C65_rows`, `C66_outcomes_partial`, `C66_terminates_partial`, `C66_terminates_refuted`, `C67_program_refuted`, `C67_schedule_independent_partial`, `C67_schedule_independent_refuted`, `C68_found_threshold_solvable_refuted`, `C68_program_refuted`, `C69_map_consistent_optimal`, `C69_threshold_below`, `C70_memory_safe`, `C71_any_order`, `C71_one_thread`, `C71_sequential_possible`, `C73_defaults`, `C74_kernel_safe`, `C75_host_ends`, `C76_one_group_partial`, `C76_schedule_independent_partial`, `C76_schedule_independent_refuted`, `C77_stops_at_fixed_point_partial`, `C77_stops_at_fixed_point_refuted`, `C78_host_constraints_partial`, `C78_host_constraints_refuted`, `C79_gpu_as_cpu_partial`, `C79_gpu_as_cpu_refuted`, `C79_one_group_partial`, `C79_program_refuted`, `C80_best_map`, `C80_best_map_gpu`, `C80_same_as_sequential`, `C80_same_map`, `C80_sequential`, `C81_cuda_indices_partial`, `C81_cuda_indices_refuted`, `C81_cuda_intensities_partial`, `C82_one_group_partial`, `C82_some_technology_partial`, `C82_some_technology_refuted`, `C83_flags_race_refuted`, `C83_kernel_cl_partial`, `C83_kernel_cuda_partial`, `C83_no_two_stores_partial`, `C83_nothing_to_remove_partial`, `C83_one_row_partial`, `C83_own_rows_partial`, `C83_threads_race_refuted`, `C84_command_line`, `C84_order_irrelevant`, `C84_refused`, `C85_extra_words_refuted`, `C85_unknown_option_partial`, `C87_too_large_partial`, `C87_too_large_refuted`, `C88_opencl_failure_reported`, `C90_penalties_finite`, `C91_in_order_partial`, `C91_program_safe_partial`, `C91_same_file`, `C91_same_program`, `C91_threads_partial`, `C91_written_file`, `C92_exact`, `C93_float_device_partial`, `C93_float_device_refuted`, `C93_usual_partial`, `C94_exact`, `C94_outcomes`, `C94_same_program`, `C95_decides`, `C95_one_outcome`, `C95_threads`, `C95_threshold`, `C96_device_as_processor`, `C96_map_exact`, `C96_one_group`, `C97_exact`, `C97_fma`, `C97_penalties`, `C97_same_file`, `C97_same_program`, `C97_written_file`, `C98_near_optimal`, `C98_near_optimal_contracted`, `C98_not_exact`, `C99_near_optimal_32`, `C99_near_optimal_contracted`, `C99_near_optimal_float`
<!-- end of axioms -->

### What is modelled

| File | Functions |
|---|---|
| `include/types.hpp` | `ULONG`, `FLOAT` (any arithmetic; `double` and `float` in `Model/Double.lean`), `BOOL`, arrays, `Pixel`, `Node`, `Edge` |
| `lib/image.cpp` | `image_valid` (with its `unsigned` counter) |
| `lib/indexing.cpp` | all functions |
| `lib/indexing_checks.cpp` | all functions |
| `lib/disparity_graph.cpp` | the constructor, `node_penalty`, `edge_penalty` |
| `lib/lowest_penalties.cpp` | all functions |
| `lib/constraint_graph.cpp` | all functions; sequentially (`Model/Constraint.lean`) and with threads (`Model/Parallel.lean`) |
| `lib/labeling_finder.cpp` | all functions, including `find_labeling_cl` and `find_labeling_cuda` |
| `lib/pgm_io.cpp` | reading and writing on the level of characters and flags of streams |
| `lib/main.cpp` | everything; the command line as a list of words (`Model/CommandLine.lean`) |
| `lib/compile_cl.cpp` | `concatenate_files`, `create_program` for any compiler (`Model/CompileCl.lean`) |
| `lib/solve_csp.cl`, `lib/gpu_csp.cpp` | kernels, barriers, host loops, sending of data |
| `lib/solve_csp.cu`, `lib/cuda_csp.cu` | the same; see below |
| `lib/*.cu` (others) | they only include the `.cpp` files |

### What is not modelled

* `boost::program_options` is not a part of the repository. Its parsing of words is modelled after its documentation
  (`Model/CommandLine.lean`); which words that look like options are refused as values is left open (`Library`). Texts of its messages
  are not modelled.
* Flags of the compiler that change arithmetic (`-ffast-math`; there are none in the repository). That `Double` and `Single` are numbers of IEEE 754
  is proved: operations give the nearest representable number, ties to even, infinities beyond the range, signs of zeros
  (`Spec/Ieee.lean`, `Lemmas/IeeeSpec.lean`). Contraction of `a * b + c` to one operation is in
  `Model/Contracted.lean` (C97). Devices compute with `float` as IEEE 754 says, subnormal
  numbers aside (`Model/Flushing.lean`, C110); for integers that are not too large any arithmetic will do (C109). Only sums, differences, products and comparisons are used.
* The compiler and its optimisations. Races on `nodes_availability` are undefined behaviour in C++; the model gives them
  the meaning described above (each access is atomic on words, any stale value may be seen). C83 says which races there are;
  `Solver.PossibleStd` is the reading by the standard, in which a race makes the whole execution undefined.
* Failures of allocation are exceptions at the places listed in `Model/Memory.lean` (C106); other theorems have enough memory except for data of
  images read from files (`World.memory`). Memory that is granted but cannot be used (overcommitment) is not modelled. Read errors are in `Model/ReadErrors.lean` (C107).
* Failures of writing except that the file cannot be opened (C63) and that the device is full (C89).
* Failures of CUDA: limits on the size of launches are in C87, any failures of calls in C102; the message of `cdpErrchk` is not modelled, and
  pointers that `cudaMalloc` has not initialised are values later calls may refuse or not. Failures of OpenCL are exceptions (C88).
  What the compiler of OpenCL makes of the sources (C86) is taken for granted.
* CUDA: `ULONG` is `unsigned` there. `Model/Gpu.lean` has kernels with 64 bits; those with 32 bits are in `Model/CudaKernel.lean`, and for images
  and levels with `4 * width * height * levels ≤ 2^32` the program does the same with both (C94). With more nodes the kernels do differ (C81).
  Synchronisation of the grid (`grid_group::sync`) in a kernel that is not launched cooperatively has no defined meaning in
  CUDA; the model takes it for a barrier of groups of threads, and theorems hold for any division into groups: all threads, blocks, or each
  thread for itself (then it does nothing). `*changed` is not `volatile`; the model reads it every time.
* Time and memory consumption, except for the number of calls of `solve_csp` and of rounds in them (C103).

## 3. Plan per property

| Property | Modelled by | How proved |
|---|---|---|
| C01–C04 | `pixelIndex`, `nodeIndex`, `reparametrizationIndexFast`, `neighborhoodIndexFast` on `UInt64` | no-overflow lemma, mixed-radix uniqueness; sizes allocated by the constructors |
| C05, C06 | `neighborIndex`, `neighborByIndex`, `neighborhoodExists` on all 64-bit pixels | case analysis with wrap-around |
| C07, C08 | `nodeExists`, `edgeExists` | case analysis |
| C09, C10 | `imageValid` (32-bit counter), `mkDisparityGraph` | loop invariant; decision logic |
| C11 | every model function returns `.ok` | refinement of each function to a pure function |
| C12–C15 | `nodePenalty`, `edgePenalty` | algebra; sums over the grid |
| C16, C17 | `LowestPenalties` constructor | loop invariant "minimum so far"; C17 is false for the left direction: witness + partial |
| C18–C22 | `ConstraintGraph` constructor, availability functions | loop invariants; order laws |
| C23, C24 | `shouldRemoveNode`, `cspProcessPixel` | loop invariants |
| C25 | `cspSolutionIteration` never sets its `changed` flag | witness against the documented claim + exactly when it returns true |
| C26–C28 | `solveCsp` | invariant "every solution stays"; exact outcome of a sweep |
| C29, C30, C42, C39 | `solveCsp` does a single sweep | concrete witnesses against the claims, partial theorems for what holds |
| C31, C32, C57 | chaotic iteration of `cspProcessPixel` | monotone operators, greatest fixed point; min-closed constraints |
| C33, C65–C71 | small-step interleaving of workers, one shared-memory access per step | program logic (`Lemmas/ParLogic.lean`), invariants over all reachable states, simulation of the sequential program by one worker |
| C34–C36 | `fetch*` | loop = list comprehension; sort + unique |
| C37–C38 | bisection over `solveCsp` | invariant; monotonicity C19; zero labeling is consistent at the last candidate |
| C40, C41 | `chooseBestNode`, `findLabeling` | loop invariants |
| C43–C45 | `buildDisparityMap`, pipeline | loop invariants; composition |
| C46–C53 | character-level model of `istream`/`ostream` use | induction on text; round-trip |
| C54, C55, C63, C64, C72, C73 | decision logic of `main` | case analysis |
| C56, C58, C59, C74–C79 | GPU kernels: index mapping, round loop with a shared flag, host loops | arithmetic; invariants over executions with barriers; explicit executions |
| C60, C69, C80 | the labeling that is lexicographically best (`LexBest`, `BestMap`) | greedy choice + min-closed constraints: what is found is the best of all consistent labelings |
| C81 | 32-bit indices of CUDA (`Model/Cuda.lean`) beside the 64-bit ones | no-overflow lemmas; two nodes with the same index |
| C82 | the map of the greedy choice (`LocalAt`, `GreedyMap`) | every technology keeps sets closed under neighbors; one work group removes everything else; images for which it fails |
| C83 | `Prog.Loads`, `Prog.Stores`, `Race` (`Spec/Race.lean`) on the same executions | footprints of programs (`Prog.Uses`), invariants of rounds; explicit executions |
| C84, C85 | `parseWords`, `store`; grammar of command lines (`Spec/CommandLine.lean`) | parsing is equivalent to the grammar; induction on words |
| C86 | `concatenateFiles`, `createProgram`, `deviceFunctions` (the table of calls, read off the sources by hand) | induction on files; the table is closed under calls and ranked |
| C88, C89 | `findLabelingClFailing`, `World.room` | case analysis of `main` |
| C87 | `cspSolutionCudaLimited` | loops with and without limits go together until a launch fails |
| C90–C93 | `Double`, `Single` (`Model/Double.lean`) | simulation of the whole program in two arithmetics (`Lemmas/Transfer*.lean`); a concrete run with `float` |
| C94 | kernels of CUDA with 32 bits (`Model/CudaKernel.lean`) | equality of kernels, launches and hosts with those of 64 bits (`Lemmas/CudaKernel.lean`), then of programs |
| C95, C96 | images of one row: `Spec/Row.lean` | nothing but the own row is read, so each thread but the first is idle (`Lemmas/ParRow.lean`); a row is a chain: arc consistency decides it, one pass of `solve_csp` looks one column further (`Lemmas/Row.lean`, `Lemmas/RowCode.lean`) |
| C97 | contraction of `a * b + c` (`Model/Contracted.lean`): a product is not rounded until it is used; which sums are contracted is a parameter | the summand is a zero and the product is not negative, so both ways give the same (`Lemmas/Contracted.lean`); arithmetic of the processor and of devices changed at once (`World.pullBoth`) |
| C98 | the same program with `double` (`Model/Double.lean`) and exact numbers | bounds on errors of rounding (`Lemmas/NearOptimal.lean`), simulation of the whole program; a concrete run that is not exactly optimal (`C98_not_exact`) |
| C99 | the same with `float` on devices (`Model/Double.lean`) | conversion of weights to `float` and errors of rounding (`Lemmas/NearDevice.lean`), any schedule |
| C100 | one row, one work group, `float` on the device | simulation with exact numbers within `2^24`, C95; a concrete run with larger weights |
| C101 | perfect and ideal labelings: `Spec/Perfect.lean` | the labeling is feasible at threshold zero, so it is never removed; in each pixel its node is the first best one, so it is chosen first (`Lemmas/Perfect.lean`); rounding does not reorder penalties of different integers (`Lemmas/PerfectDouble.lean`) |
| C102 | `cspSolutionFailing`, `findLabelingFailing`: each call has a verdict (`Model/CudaFailures.lean`) | until the first failure the loops do the same; after it no kernel changes what is copied, or the next check ends the program (`Lemmas/CudaFailures.lean`); flags are a part of a labeling with at most one label per pixel, so the map is the same or there is no label |
| C103 | `Par.thresholdSearch`, `Par.findLabeling` count calls (`Model/ParPipeline.lean`) | each iteration of the search halves the range; loops over pixels add at most one (`Lemmas/Calls.lean`); the program does the same with any other results of later calls |
| C104 | the same program with other images (`Recode`: `Lemmas/Transfer*.lean` carry numbers and images at once) | penalties are equal as numbers of the program, so all executions correspond step by step (`Lemmas/Images.lean`); differences of intensities are exact in `double` and `float` |
| C105 | `BestMap` in exact arithmetic | multiplication of all penalties by the same number keeps the best map (`C105_best_map`); C92 and C93 say when the written map is this one |
| C106 | `Limited.program` (`Model/Memory.lean`): the program with an allocation that may fail at each place where the code allocates | refinement of the program (`Refines`), step by step; sizes of arrays without wrap-around |
| C107 | `Faulty.program` (`Model/ReadErrors.lean`): devices that fail instead of reaching the end of a file | both machines do the same until the error, `failbit` stays after it, as `eofbit` is never set (`Follows`, `Lemmas/ReadErrors.lean`) |
| C108 | best maps in the arithmetic of `binary64` | a relation of penalties that keeps comparisons and differences keeps the best map (`Related`); rounding of integers commutes with powers of two (`Lemmas/Power.lean`) |
| C109 | any arithmetic of a device, `ExactOn` (`Spec/Exact.lean`) | the program is simulated with bounded integers (`Bounded`), which both the processor and the device carry (`Lemmas/Exact.lean`) |
| C110 | `Flush` (`Model/Flushing.lean`) | rounded integers are not subnormal; a threshold replaced by zero accepts less (`Lemmas/Flushing.lean`); the bound of C99 |
| C111 | `Troubled.program` (`Model/Troubles.lean`), `World.AnyDevices`, `World.room` | C106 and C107 for one program; a file that does not fit is cut and nothing else changes (`program_room`); then C102, C94 and C99 for the program without failures |
| C112 | `BestMap`, `Image.Repeats` | rows of feasible labelings are feasible for one row and the other way round (`RepeatsGraph.down`, `RepeatsGraph.up`); the best labeling is unique |
| C113 | `BestMap`, `Image.UpsideDown` | feasible labelings are turned upside down (`Flipped.feasible`); the order of rows decides between equally good ones: a concrete pair of images |
| C114 | `Diverges`, `RoundTo`, `Solver.HasEndless` | a round with words of one flag that reports a change leaves no node (`RoundTo.wipes`), and then nothing is reported (`RoundTo.nonempty`); flags only decrease, so an endless execution ends in a state taken to itself; the only source of endless executions of the program is a call of `solve_csp` (`program_safe`) |
| C115 | `Outcome.files`, `session` (`Model/Files.lean`: no links, what was written can be read, no other program changes files) | the program reads `World.file` only at the two paths; written text is that of a map and is read back (C47) |
| C116 | `FeasibleAt`, `Image.MapLike` | disparities of a feasible labeling do not leave the row and obey `neighborhood_exists`; with plain rows of the left image the labeling of zeros is as good as any and comes first |
| C117 | `BestMap`, `MoreLevels` | labelings with small disparities are feasible with more levels if the best node of each pixel is the same (`MoreLevels.up`, `MoreLevels.down`), and the best labeling is unique; a concrete pair of images otherwise |
| C118 | `BestMap`, `Image.Rearranged` | without penalties of edges feasible labelings consist of feasible rows (`DisparityGraph.Flat.feasible`), so a row of one map may be put into the other one |
| C119 | `DifferBy`, `Image.Within` | zeros are feasible at `c m²` (`zeros_at`), so each written map is, up to the error of C98 and C99; the last column is of zeros |
| C120 | `SmoothnessWeak`, `betterOfTwo`, `TwoLevelMap` | below the penalty of a step neighbors are equal and the last column is of zeros (`zeros_below`); at it better disparities are feasible (`better_feasible`). One thread accepts no smaller threshold by C121, so better disparities are kept by C42 (`disparityMap_best`); devices keep them the same way (`C120_found_device`), and numbers that are not rounded give exact penalties (`pixel_exact`) |
| C121 | `RowFeasibleAt` | a sweep goes along rows from the left, so what is left of a row after it can be followed from the right end (`sweep_rows`) |
| C122 | `cspSolutionCudaFrom` (`Model/Garbage.lean`): `changed` is garbage before the first launch | two executions that differ in initial contents are related step by step (`Step.samePools`): each item stores the cells before it loads them (`Prog.Owns`), and reads of a word only the flag of the word (`Prog.Alike`) |
| C123 | as C98, C99, C92, C93 | a labeling with misfit `a` and roughness `b` is feasible at `max (c a) (s b)`; the map is feasible at every threshold at which a labeling is |
| C124 | as C123; one thread as in C120, C121 | the map of the shift is feasible at `max (c a) s` and the only one; nodes left by `solve_csp` have a labeling of the row to the left, so no other nodes are left; with devices the same for the sweeps of kernels (`World.finds_exact`, weights up to 2^24) |
| C125 | as C123, C124 | at thresholds up to smoothness times `b` only nodes of the labeling are available; each of them is processed by `solve_csp`, so they are connected; with devices as in C124 |
| C126 | as C125; `Noisy` (`Props/Noise.lean`) | differences of corresponding pixels are at most `2 n`, of others at least `D - 2 n`, so the labeling is clear (C125) |
| C127 | as C123; `ReliableAt` (`Props/Reliable.lean`) | bounds of C123 for a single pixel; bounds for neighbors are added along a path |
| C61, C62 | `program` for all solvers and devices | composition |

Properties that are false of the code are recorded with a machine-checked counterexample (a theorem ending in
`_refuted`) next to a theorem named `…_partial` that states what does hold.

`lean/Verif/Tests/Project.lean` evaluates, in the kernel, the 43 test cases of `/repo/tests` in the model (the 44th is empty), with the images and
the expected numbers of the tests. They are no proofs of properties: they check the model against what the authors say about the code.

## 4. Findings

Each of them is a theorem of the model. Most counterexamples use exact numbers, `Props/DoubleRefuted.lean` and `Props/FloatDevice.lean` repeat the
most important ones as runs of the whole program with `double` (C42, C61, C67, C68) and with `float` on a device (C79, C93, C100). These are disagreements between what the documentation, the tests or common sense promise
and what the code does.

### Sequential program

* `solve_csp` never reaches a fixed point: `csp_solution_iteration` declares `changed`, drops the result of `csp_process_pixel` and
  reports a change only when all nodes were wiped (C25). So there is a single sweep; nodes that belong to no labeling stay (C30),
  "solvable" may be reported when no labeling exists (C29), the found threshold may be smaller than the smallest consistent one (C39), and
  the program may end with "Cannot find labeling. This should not ever happen." for a correct pair of images (C42); for images of one row it is known exactly when (C96).
* Yet if a map is produced, it is consistent and it is the best labeling, however it was found (C41, C45, C60, C80).
* For the left neighbor, `calculate_lowest_neighborhood_penalty` and `fetch_edge_available_penalties` go over the wrong pairs of disparities
  (C17, C35). With zero reparametrization — the only one the program uses — the minimum is right.
* `choose_best_node` uses -1 as "nothing found yet" (C40): with negative penalties (possible after reparametrization) the best one is missed.
* The threshold is relative to the best node of each pixel, so a larger `-d` may change the map even if neither map uses the additional
  disparities (C117), and rows influence each other even without smoothness (C118). With two levels smoothness does not smooth: either the
  map is of zeros or each pixel is chosen independently (C120).
* The check for a second label in `build_disparity_map` can never fire (C44).
* `image_valid` counts with `unsigned`: an image with 2^32 or more values is never validated (C09). NaN weights are accepted (C10).
* Reading of PGM: a comment directly after a token is taken as a part of it (C49); an image with superfluous content is refused but kept (C50);
  numbers of more than 64 bits throw another exception (C51); a header with width × height ≥ 2^64 and a byte ≥ 128 after the image are
  undefined behaviour (C53).
* `main`: help is never shown (C54); most failures end with status 0 (C55); an output file that cannot be opened is not reported (C63);
  `-d`, `-c`, `-s` cut fractions, wrap negative numbers and ignore garbage (C64). Words that are not options are ignored (C85).
* A reparametrization of `2^60` elements or more is reported as a logic error with status 0 (C106), as other failures of memory are not.
* With weights 9007199254740992 and 9007199254740993 the program writes another map than with weights three times greater (C105).
* The map for images `5 8 0, 5 8 0` and `2 4 0, 3 4 0` (three levels, cleanness 1, smoothness 4) is not turned upside down with the images: of equally good maps that with
  the best node in the first row is taken (C113).

### Threads

* 64 flags share a word of `std::vector<bool>`: threads may undo each other's removals. Two threads may go on forever (C66, and C61
  for the whole program). In this execution each parallel region ends; the same unlucky interleaving happens in every one of them.
* Threads race (C83): on words of `std::vector<bool>`, and on flags of neighbor rows even if each of them had its own word. By the
  standard of C++ the behaviour of the whole program is then undefined. No races: one thread, one row, nothing to remove.
* Whether the graph is found solvable depends on the schedule (C67); "Cannot solve CSP problem" is possible (C68).
* With the same files, options and number of threads it depends on which thread is faster whether the program writes a map or ends with
  "Cannot find labeling" (`C67_program_refuted`).
* No solution is lost (C33), memory is safe (C70), one thread is the sequential program (C71), and a produced map is the best one (C69).

### GPU

* `changed[0]` is reset by the fastest item before others have read it: items miss each other at a barrier (C58).
* `changed[1]` is reset by work groups that begin later: the host loop stops early (C77), and it depends on the schedule whether a map is
  found (C76).
* `float` on the device: a found map may violate the constraints of the host (C78). With weights 1048576 and 16777217 a device writes a map
  that is not the best one, and the processor writes another one (C93). With weights 4194304 and 16777227 the processor writes a map of
  images of one row, and a device with one work group says that no map can be found (C100). With products of weights and squared differences
  up to `2^24` the maps are exact. In any case they are almost the best (C99).
* The GPU version may find a map when the processor does not (C79). If both find one, it is the same (C80).
* For some accepted images no technology finds a map, whatever the schedule (C82): the choice of the best node in one pixel after another
  needs more than the removal of nodes without neighbors.
* CUDA computes indices with 32 bits (C81): with more than 2^32 nodes two nodes share a flag. `__int2float_rn` makes intensities from 2^31
  negative; there are none in files that the program accepts, so with not more than 2^30 nodes the program is not affected (C94).
* Work items race on `changed` in every launch with at least two of them, and on flags of neighbor pixels; there are no other races (C83).
* With CUDA, an image with more rows than a block may have threads (usually 1024) ends the program with status 0 and a message in the
  standard output only (C87).
* A failure of CUDA never makes a wrong map (C102), but the status is 0 in all cases, and a failure after the last launch looks like an
  image without labels in the error stream (`C102_goes_on`).
* A device without room for the output file is not noticed: status 0, no message (C89).
* Sources of the OpenCL program that cannot be opened are taken for empty ones (C86).
* Memory is safe, kernels and host loops end unless a barrier is missed (C74, C75).
