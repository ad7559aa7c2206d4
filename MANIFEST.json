{
 "claims": [
  {
   "property": "C01",
   "status": "proved",
   "theorems": [
    "SP.C01_pixel_index_bijective"
   ],
   "note": ""
  },
  {
   "property": "C02",
   "status": "proved",
   "theorems": [
    "SP.C02_node_index_bijective",
    "SP.C02_allocated"
   ],
   "note": ""
  },
  {
   "property": "C03",
   "status": "proved",
   "theorems": [
    "SP.C03_reparametrization_index_bijective",
    "SP.C03_allocated"
   ],
   "note": ""
  },
  {
   "property": "C04",
   "status": "proved",
   "theorems": [
    "SP.C04_neighborhood_index_bijective",
    "SP.C04_allocated"
   ],
   "note": ""
  },
  {
   "property": "C05",
   "status": "proved",
   "theorems": [
    "SP.C05_neighbor_numbering"
   ],
   "note": ""
  },
  {
   "property": "C06",
   "status": "proved",
   "theorems": [
    "SP.C06_neighborhood_exists_iff",
    "SP.C06_neighborhood_exists_symmetric"
   ],
   "note": ""
  },
  {
   "property": "C07",
   "status": "proved",
   "theorems": [
    "SP.C07_node_exists_iff"
   ],
   "note": ""
  },
  {
   "property": "C08",
   "status": "proved",
   "theorems": [
    "SP.C08_edge_exists_iff",
    "SP.C08_edge_exists_symmetric"
   ],
   "note": ""
  },
  {
   "property": "C09",
   "status": "proved",
   "theorems": [
    "SP.C09_image_valid_exact",
    "SP.C09_large_image_never_validated",
    "SP.C09_short_data_read_out_of_bounds"
   ],
   "note": "Exact for sized images; images with more than 2^32 pixels and data shorter than declared are treated by separate theorems."
  },
  {
   "property": "C10",
   "status": "proved",
   "theorems": [
    "SP.C10_constructor_accepts",
    "SP.C10_constructor_rejects",
    "SP.C10_constructor_establishes_invariant",
    "SP.C10_reparametrization_size_wraps",
    "SP.C10_nan_weights_accepted"
   ],
   "note": "Accepts exactly the documented inputs; the size of the reparametrization array wraps around for huge images, and NaN weights are accepted (separate theorems)."
  },
  {
   "property": "C11",
   "status": "proved",
   "theorems": [
    "SP.C11_memory_safe",
    "SP.C11_memory_safe_fresh"
   ],
   "note": ""
  },
  {
   "property": "C12",
   "status": "proved",
   "theorems": [
    "SP.C12_node_penalty_formula",
    "SP.C12_edge_penalty_formula",
    "SP.C12_constructor_makes_fresh_graph"
   ],
   "note": ""
  },
  {
   "property": "C13",
   "status": "proved",
   "theorems": [
    "SP.C13_edge_penalty_symmetric"
   ],
   "note": ""
  },
  {
   "property": "C14",
   "status": "proved",
   "theorems": [
    "SP.C14_energy_invariant"
   ],
   "note": ""
  },
  {
   "property": "C15",
   "status": "proved",
   "theorems": [
    "SP.C15_lower_bound"
   ],
   "note": ""
  },
  {
   "property": "C16",
   "status": "proved",
   "theorems": [
    "SP.C16_lowest_pixel_penalty"
   ],
   "note": ""
  },
  {
   "property": "C17",
   "status": "partial",
   "theorems": [
    "SP.C17_lowest_neighborhood_penalty_partial",
    "SP.C17_lowest_neighborhood_penalty_fresh",
    "SP.C17_variants",
    "SP.C17_left_neighborhood_refuted"
   ],
   "note": "False as stated: for the left neighbor the loop visits wrong pairs. Proved for the other three neighbors, and for all four on graphs as constructed (zero reparametrization)."
  },
  {
   "property": "C18",
   "status": "proved",
   "theorems": [
    "SP.C18_start_nodes"
   ],
   "note": ""
  },
  {
   "property": "C19",
   "status": "proved",
   "theorems": [
    "SP.C19_nodes_monotone",
    "SP.C19_edges_monotone",
    "SP.C19_solution_monotone"
   ],
   "note": ""
  },
  {
   "property": "C20",
   "status": "proved",
   "theorems": [
    "SP.C20_nonnegative_threshold",
    "SP.C20_negative_threshold"
   ],
   "note": ""
  },
  {
   "property": "C21",
   "status": "proved",
   "theorems": [
    "SP.C21_make_node_available",
    "SP.C21_make_node_unavailable",
    "SP.C21_make_all_nodes_unavailable"
   ],
   "note": ""
  },
  {
   "property": "C22",
   "status": "proved",
   "theorems": [
    "SP.C22_is_edge_available"
   ],
   "note": ""
  },
  {
   "property": "C23",
   "status": "proved",
   "theorems": [
    "SP.C23_should_remove_node"
   ],
   "note": ""
  },
  {
   "property": "C24",
   "status": "proved",
   "theorems": [
    "SP.C24_process_pixel",
    "SP.C24_process_pixel_idempotent"
   ],
   "note": ""
  },
  {
   "property": "C25",
   "status": "partial",
   "theorems": [
    "SP.C25_iteration_result_refuted",
    "SP.C25_iteration_result_partial",
    "SP.C25_iteration_exact_partial"
   ],
   "note": "False as stated: the result of csp_process_pixel is dropped. The exact meaning of the returned flag is proved."
  },
  {
   "property": "C26",
   "status": "proved",
   "theorems": [
    "SP.C26_solve_terminates"
   ],
   "note": ""
  },
  {
   "property": "C27",
   "status": "proved",
   "theorems": [
    "SP.C27_solve_sound"
   ],
   "note": ""
  },
  {
   "property": "C28",
   "status": "proved",
   "theorems": [
    "SP.C28_unsolvable_correct"
   ],
   "note": ""
  },
  {
   "property": "C29",
   "status": "partial",
   "theorems": [
    "SP.C29_labeling_exists_refuted",
    "SP.C29_pixels_alive_partial"
   ],
   "note": "First half proved; the second half (a labeling exists) is refuted."
  },
  {
   "property": "C30",
   "status": "partial",
   "theorems": [
    "SP.C30_arc_consistency_partial",
    "SP.C30_arc_consistency_refuted",
    "SP.C30_one_sweep_partial"
   ],
   "note": "False as stated: solve_csp does a single sweep. Bounds on the remaining nodes are proved."
  },
  {
   "property": "C31",
   "status": "proved",
   "theorems": [
    "SP.C31_fixpoint_unique",
    "SP.C31_fixpoint_reached"
   ],
   "note": ""
  },
  {
   "property": "C32",
   "status": "proved",
   "theorems": [
    "SP.C32_arc_consistency_decides",
    "SP.C32_fixpoint_decides"
   ],
   "note": ""
  },
  {
   "property": "C33",
   "status": "proved",
   "theorems": [
    "SP.C33_nodes_stay",
    "SP.C33_solutions_kept",
    "SP.C33_rounds_finite"
   ],
   "note": ""
  },
  {
   "property": "C34",
   "status": "proved",
   "theorems": [
    "SP.C34_fetch_pixel"
   ],
   "note": ""
  },
  {
   "property": "C35",
   "status": "partial",
   "theorems": [
    "SP.C35_fetch_edge_partial",
    "SP.C35_left_neighborhood_refuted"
   ],
   "note": "False as stated: for the left neighbor pairs that are not edges are visited. Proved for the other three neighbors."
  },
  {
   "property": "C36",
   "status": "proved",
   "theorems": [
    "SP.C36_fetch_all",
    "SP.C36_fetch_all_fresh"
   ],
   "note": ""
  },
  {
   "property": "C37",
   "status": "proved",
   "theorems": [
    "SP.C37_bisection"
   ],
   "note": ""
  },
  {
   "property": "C38",
   "status": "proved",
   "theorems": [
    "SP.C38_found_threshold_solvable"
   ],
   "note": ""
  },
  {
   "property": "C39",
   "status": "partial",
   "theorems": [
    "SP.C39_minimal_threshold_partial",
    "SP.C39_minimal_threshold_refuted"
   ],
   "note": "False as stated: there may be no labeling at the found threshold. Proved: no smaller threshold has a labeling."
  },
  {
   "property": "C40",
   "status": "partial",
   "theorems": [
    "SP.C40_choose_one_partial",
    "SP.C40_choose_best_partial",
    "SP.C40_negative_penalties_refuted"
   ],
   "note": "False for graphs with negative penalties (the sentinel -1 is used for 'none'). Exactly one node is kept always; it is the best one when penalties are not negative."
  },
  {
   "property": "C41",
   "status": "proved",
   "theorems": [
    "SP.C41_labeling_consistent"
   ],
   "note": ""
  },
  {
   "property": "C42",
   "status": "partial",
   "theorems": [
    "SP.C42_program_refuted",
    "SP.C42_best_labeling_found_partial",
    "SP.C42_labeling_found_refuted"
   ],
   "note": "False as stated: on a 3x1 image the program ends with 'Cannot find labeling' though one exists. Proved when the best nodes form a labeling."
  },
  {
   "property": "C43",
   "status": "proved",
   "theorems": [
    "SP.C43_disparity_map",
    "SP.C43_map_valid"
   ],
   "note": "Validity of the map needs less than 2^32 pixels (32-bit counter in image_valid)."
  },
  {
   "property": "C44",
   "status": "partial",
   "theorems": [
    "SP.C44_ambiguity_refuted"
   ],
   "note": "False as stated: the check for a second label is unreachable."
  },
  {
   "property": "C45",
   "status": "proved",
   "theorems": [
    "SP.C45_map_consistent"
   ],
   "note": ""
  },
  {
   "property": "C46",
   "status": "proved",
   "theorems": [
    "SP.C46_round_trip",
    "SP.C46_larger_values_not_read_back"
   ],
   "note": "Needs memory for the image; the bound on the maximal value is necessary (separate theorem)."
  },
  {
   "property": "C47",
   "status": "proved",
   "theorems": [
    "SP.C47_short_lines",
    "SP.C47_larger_values_long_line"
   ],
   "note": ""
  },
  {
   "property": "C48",
   "status": "proved",
   "theorems": [
    "SP.C48_absent_image",
    "SP.C48_invalid_image",
    "SP.C48_valid_image_written"
   ],
   "note": ""
  },
  {
   "property": "C49",
   "status": "partial",
   "theorems": [
    "SP.C49_layout_irrelevant_partial",
    "SP.C49_layouts_agree_partial",
    "SP.C49_adjacent_comment_refuted"
   ],
   "note": "False for a comment directly after an instruction. Proved when separators begin with whitespace."
  },
  {
   "property": "C50",
   "status": "partial",
   "theorems": [
    "SP.C50_failed_read_partial",
    "SP.C50_superfluous_refuted"
   ],
   "note": "False for superfluous content after a complete image: it is the only exception."
  },
  {
   "property": "C51",
   "status": "partial",
   "theorems": [
    "SP.C51_malformed_partial",
    "SP.C51_never_accepted",
    "SP.C51_accepted_exactly",
    "SP.C51_too_large_refuted"
   ],
   "note": "False for numbers that do not fit 64 bits (an exception is thrown). Proved otherwise; malformed files are never accepted, and files are accepted exactly when they are images that fit the memory."
  },
  {
   "property": "C52",
   "status": "proved",
   "theorems": [
    "SP.C52_trailing_exact",
    "SP.C52_trailing_never_accepted",
    "SP.C52_superfluous_refused"
   ],
   "note": ""
  },
  {
   "property": "C53",
   "status": "partial",
   "theorems": [
    "SP.C53_read_safe_partial",
    "SP.C53_read_ends",
    "SP.C53_wrapped_size_refuted",
    "SP.C53_wrapped_size_always",
    "SP.C53_isspace_refuted"
   ],
   "note": "False for headers with 2^64 or more pixels and for bytes 128-254 after the image. Proved otherwise."
  },
  {
   "property": "C54",
   "status": "partial",
   "theorems": [
    "SP.C54_help_option_refuted",
    "SP.C54_no_parameters_refuted",
    "SP.C54_help_never_printed"
   ],
   "note": "False as stated; the list of options is never printed (proved for all command lines)."
  },
  {
   "property": "C55",
   "status": "partial",
   "theorems": [
    "SP.C55_status_partial",
    "SP.C55_missing_images_refuted",
    "SP.C55_missing_file_refuted",
    "SP.C55_status_exact_partial"
   ],
   "note": "False as stated: most errors end with status 0. Proved: with another status nothing is written."
  },
  {
   "property": "C56",
   "status": "proved",
   "theorems": [
    "SP.C56_pixels"
   ],
   "note": ""
  },
  {
   "property": "C57",
   "status": "proved",
   "theorems": [
    "SP.C57_fixed_point"
   ],
   "note": "For a launch that changes nothing with any work groups, and for each launch if all items belong to the same work group."
  },
  {
   "property": "C58",
   "status": "partial",
   "theorems": [
    "SP.C58_barriers_partial",
    "SP.C58_barriers_refuted"
   ],
   "note": "False: changed[0] is reset by the fastest item before others have read it. Proved for work groups of one item and for launches that have nothing to remove."
  },
  {
   "property": "C59",
   "status": "proved",
   "theorems": [
    "SP.C59_map_consistent"
   ],
   "note": "Consistent with the constraints as computed by the arithmetic of the device; see C78 for those of the host."
  },
  {
   "property": "C60",
   "status": "proved",
   "theorems": [
    "SP.C60_map_optimal"
   ],
   "note": ""
  },
  {
   "property": "C61",
   "status": "partial",
   "theorems": [
    "SP.C61_double_refuted",
    "SP.C61_program_safe_partial",
    "SP.C61_threads_partial",
    "SP.C61_in_order_partial",
    "SP.C61_program_safe_refuted"
   ],
   "note": "Refuted for several threads (they may go on forever). Proved otherwise: for all numbers of threads, schedules, builds and behaviours of devices the program ends with status 0 or 1, or several threads go on forever, or work items miss each other at a barrier; without GPU support and with one thread it always ends. Memory for less than 2^31 intensities, at most 2^32 threads, harmless files (see C53), arithmetics without NaN."
  },
  {
   "property": "C62",
   "status": "proved",
   "theorems": [
    "SP.C62_written_file",
    "SP.C62_same_file"
   ],
   "note": "If there is room for the file (see C89). For all numbers of threads and schedules and all builds; if a labeling is found by a device then its arithmetic must be that of the host (see C78). Memory for less than 2^31 intensities, at most 2^32 threads, arithmetics without NaN. Two executions that write a file write the same one."
  },
  {
   "property": "C63",
   "status": "partial",
   "theorems": [
    "SP.C63_cuda_failure_refuted",
    "SP.C63_error_stream_tells_partial",
    "SP.C63_unwritable_output_refuted"
   ],
   "note": "False if the output file cannot be opened (nothing is reported) or if CUDA fails (reported to the standard output). Proved otherwise."
  },
  {
   "property": "C64",
   "status": "partial",
   "theorems": [
    "SP.C64_number_options_partial",
    "SP.C64_number_options_refuted",
    "SP.C64_number_exact_partial"
   ],
   "note": "False: fractions are cut, negative numbers wrap around, garbage after digits is ignored. Proved for decimal notations and for values that do not begin like a number."
  },
  {
   "property": "C65",
   "status": "proved",
   "theorems": [
    "SP.C65_round_covers",
    "SP.C65_rows",
    "SP.C65_outside_bound_misses_rows"
   ],
   "note": ""
  },
  {
   "property": "C66",
   "status": "partial",
   "theorems": [
    "SP.C66_terminates_partial",
    "SP.C66_outcomes_partial",
    "SP.C66_terminates_refuted"
   ],
   "note": "False for std::vector<bool>, in which 64 flags share a word: two threads can bring back each other's flags forever. Proved when each flag has a word of its own."
  },
  {
   "property": "C67",
   "status": "partial",
   "theorems": [
    "SP.C67_program_refuted",
    "SP.C67_schedule_independent_refuted",
    "SP.C67_schedule_independent_partial"
   ],
   "note": "False as stated: on a 4x2 image it depends on the schedule whether the graph is found solvable. Bounds valid for all schedules are proved."
  },
  {
   "property": "C68",
   "status": "partial",
   "theorems": [
    "SP.C68_program_refuted",
    "SP.C68_found_threshold_solvable_refuted"
   ],
   "note": "False as stated: on a 4x2 image the final call may fail for a graph solved in the search."
  },
  {
   "property": "C69",
   "status": "proved",
   "theorems": [
    "SP.C69_map_consistent_optimal",
    "SP.C69_threshold_below"
   ],
   "note": ""
  },
  {
   "property": "C70",
   "status": "proved",
   "theorems": [
    "SP.C70_memory_safe"
   ],
   "note": ""
  },
  {
   "property": "C71",
   "status": "proved",
   "theorems": [
    "SP.C71_one_thread",
    "SP.C71_any_order",
    "SP.C71_sequential_possible",
    "SP.C71_whole"
   ],
   "note": ""
  },
  {
   "property": "C72",
   "status": "proved",
   "theorems": [
    "SP.C72_technology"
   ],
   "note": ""
  },
  {
   "property": "C73",
   "status": "proved",
   "theorems": [
    "SP.C73_defaults"
   ],
   "note": ""
  },
  {
   "property": "C74",
   "status": "proved",
   "theorems": [
    "SP.C74_kernel_safe"
   ],
   "note": ""
  },
  {
   "property": "C75",
   "status": "proved",
   "theorems": [
    "SP.C75_host_ends"
   ],
   "note": ""
  },
  {
   "property": "C76",
   "status": "partial",
   "theorems": [
    "SP.C76_schedule_independent_partial",
    "SP.C76_one_group_partial",
    "SP.C76_schedule_independent_refuted"
   ],
   "note": "False with several work groups: one schedule gives a map and another one gives none. Proved: all maps are the same; with a single work group everything is the same."
  },
  {
   "property": "C77",
   "status": "partial",
   "theorems": [
    "SP.C77_stops_at_fixed_point_partial",
    "SP.C77_stops_at_fixed_point_refuted"
   ],
   "note": "False with several work groups: changed[1] is reset by items that begin later. Proved for a single work group."
  },
  {
   "property": "C78",
   "status": "partial",
   "theorems": [
    "SP.C78_host_constraints_partial",
    "SP.C78_host_constraints_refuted"
   ],
   "note": "False when the arithmetic of the device is less precise than that of the host. Proved when conversion of numbers loses nothing."
  },
  {
   "property": "C79",
   "status": "partial",
   "theorems": [
    "SP.C79_program_refuted",
    "SP.C79_gpu_as_cpu_partial",
    "SP.C79_one_group_partial",
    "SP.C79_gpu_as_cpu_refuted"
   ],
   "note": "False: on a 4x2 image GPU finds a map and CPU ends with 'Cannot find labeling'. Proved: maps are the same when both find one, and a single work group finds a map whenever CPU does."
  },
  {
   "property": "C80",
   "status": "proved",
   "theorems": [
    "SP.C80_best_map_gpu",
    "SP.C80_best_map",
    "SP.C80_same_map",
    "SP.C80_sequential",
    "SP.C80_same_as_sequential"
   ],
   "note": "For arithmetics without NaN; for GPU when conversion of numbers loses nothing."
  },
  {
   "property": "C81",
   "status": "partial",
   "theorems": [
    "SP.C81_cuda_indices_partial",
    "SP.C81_cuda_indices_refuted",
    "SP.C81_cuda_intensities_partial"
   ],
   "note": "False for large graphs: with more than 2^32 nodes two nodes share a flag; intensities from 2^31 become negative. Proved for at most 2^32 elements of reparametrization and intensities less than 2^31."
  },
  {
   "property": "C82",
   "status": "partial",
   "theorems": [
    "SP.C82_some_technology_partial",
    "SP.C82_one_group_partial",
    "SP.C82_some_technology_refuted"
   ],
   "note": "False: for images of 5x2 pixels no technology finds a map. Proved: every found map is that of the greedy choice among nodes that cannot be excluded by looking at neighbors, and a device with one work group finds it if it exists. For arithmetics without NaN; for GPU when conversion of numbers loses nothing."
  },
  {
   "property": "C83",
   "status": "partial",
   "theorems": [
    "SP.C83_one_row_partial",
    "SP.C83_own_rows_partial",
    "SP.C83_no_two_stores_partial",
    "SP.C83_nothing_to_remove_partial",
    "SP.C83_threads_race_refuted",
    "SP.C83_kernel_cl_partial",
    "SP.C83_kernel_cuda_partial",
    "SP.C83_kernels_race_refuted",
    "SP.C83_flags_race_refuted"
   ],
   "note": "False: threads race on words of std::vector<bool>, and on flags even with a word for each of them; work items race on changed in every launch, and on flags of neighbor pixels. Proved: which races are possible, and when there are none."
  },
  {
   "property": "C84",
   "status": "proved",
   "theorems": [
    "SP.C84_names",
    "SP.C84_command_line",
    "SP.C84_order_irrelevant",
    "SP.C84_refused"
   ],
   "note": "boost::program_options is not in the repository: its behaviour in the default style is modelled after its documentation; what depends on its version is a parameter."
  },
  {
   "property": "C85",
   "status": "partial",
   "theorems": [
    "SP.C85_unknown_option_partial",
    "SP.C85_extra_words_refuted"
   ],
   "note": "False: words that are not options are ignored, and so is everything after --. Proved: unknown options and missing values are refused."
  },
  {
   "property": "C86",
   "status": "partial",
   "theorems": [
    "SP.C86_defined_once",
    "SP.C86_no_recursion",
    "SP.C86_concatenation_partial",
    "SP.C86_missing_files_refuted"
   ],
   "note": "All but the last part is proved. The last one is false: a file that cannot be opened is taken for an empty one."
  },
  {
   "property": "C87",
   "status": "partial",
   "theorems": [
    "SP.C87_too_large_partial",
    "SP.C87_too_large_refuted"
   ],
   "note": "The message is printed to the standard output and the status is 0. The rest is proved."
  },
  {
   "property": "C88",
   "status": "proved",
   "theorems": [
    "SP.C88_opencl_failure_reported"
   ],
   "note": "OpenCL may fail at any moment, for any graphs; exceptions of boost::compute are derived from std::exception and not from std::logic_error."
  },
  {
   "property": "C89",
   "status": "partial",
   "theorems": [
    "SP.C89_whole_file_partial",
    "SP.C89_full_device_refuted"
   ],
   "note": "False if the file cannot be opened (C63) or if the device is full: the stream is not checked after writing. Proved: the file contains a beginning of the map, and the whole of it if there is room."
  },
  {
   "property": "C90",
   "status": "proved",
   "theorems": [
    "SP.C90_penalties_finite"
   ],
   "note": ""
  },
  {
   "property": "C91",
   "status": "partial",
   "theorems": [
    "SP.C91_same_program",
    "SP.C91_program_safe_partial",
    "SP.C91_threads_partial",
    "SP.C91_in_order_partial",
    "SP.C91_written_file",
    "SP.C91_same_file"
   ],
   "note": "What C61 and C62 say, for double itself; partial only because C61 is (several threads may go on forever)."
  },
  {
   "property": "C92",
   "status": "proved",
   "theorems": [
    "SP.C92_exact"
   ],
   "note": ""
  },
  {
   "property": "C93",
   "status": "partial",
   "theorems": [
    "SP.C93_float_device_partial",
    "SP.C93_usual_partial",
    "SP.C93_float_device_refuted"
   ],
   "note": "False for large weights: with weights 1048576 and 16777217 a device writes another map than the processor. Proved if products of weights and squared differences are at most 2^24, in particular for 8-bit images, up to 4096 levels and default weights."
  },
  {
   "property": "C94",
   "status": "proved",
   "theorems": [
    "SP.C94_same_program",
    "SP.C94_exact",
    "SP.C94_outcomes"
   ],
   "note": ""
  },
  {
   "property": "C95",
   "status": "proved",
   "theorems": [
    "SP.C95_one_outcome",
    "SP.C95_threads",
    "SP.C95_decides",
    "SP.C95_threshold"
   ],
   "note": ""
  },
  {
   "property": "C96",
   "status": "proved",
   "theorems": [
    "SP.C96_map_exact",
    "SP.C96_one_group",
    "SP.C96_device_as_processor"
   ],
   "note": ""
  },
  {
   "property": "C97",
   "status": "proved",
   "theorems": [
    "SP.C97_fma",
    "SP.C97_penalties",
    "SP.C97_same_program",
    "SP.C97_written_file",
    "SP.C97_same_file",
    "SP.C97_exact"
   ],
   "note": ""
  },
  {
   "property": "C98",
   "status": "proved",
   "theorems": [
    "SP.C98_near_optimal",
    "SP.C98_near_optimal_contracted",
    "SP.C98_not_exact"
   ],
   "note": ""
  },
  {
   "property": "C99",
   "status": "proved",
   "theorems": [
    "SP.C99_near_optimal_float",
    "SP.C99_near_optimal_contracted",
    "SP.C99_near_optimal_32"
   ],
   "note": ""
  },
  {
   "property": "C100",
   "status": "partial",
   "theorems": [
    "SP.C100_found_partial",
    "SP.C100_found_refuted"
   ],
   "note": "False for large weights: with weights 4194304 and 16777227 the processor writes a map and a device finds none. Proved if products of weights and squared differences are at most 2^24."
  },
  {
   "property": "C101",
   "status": "proved",
   "theorems": [
    "SP.C101_perfect",
    "SP.C101_device",
    "SP.C101_program",
    "SP.C101_zeros",
    "SP.C101_equal_images",
    "SP.C101_perfect_exact"
   ],
   "note": ""
  },
  {
   "property": "C102",
   "status": "proved",
   "theorems": [
    "SP.C102_failures",
    "SP.C102_failures_32",
    "SP.C102_written",
    "SP.C102_assert",
    "SP.C102_calm",
    "SP.C102_prepare",
    "SP.C102_goes_on"
   ],
   "note": ""
  },
  {
   "property": "C103",
   "status": "proved",
   "theorems": [
    "SP.C103_candidates",
    "SP.C103_search",
    "SP.C103_label",
    "SP.C103_solved",
    "SP.C103_program",
    "SP.C103_rounds"
   ],
   "note": ""
  },
  {
   "property": "C104",
   "status": "proved",
   "theorems": [
    "SP.C104_any_arithmetic",
    "SP.C104_in_order",
    "SP.C104_program",
    "SP.C104_same_file",
    "SP.C104_lighter",
    "SP.C104_negative"
   ],
   "note": ""
  },
  {
   "property": "C105",
   "status": "partial",
   "theorems": [
    "SP.C105_best_map",
    "SP.C105_ratio_partial",
    "SP.C105_ratio_device_partial",
    "SP.C105_ratio_refuted"
   ],
   "note": "Proved for exact penalties in general and for the program while products of weights and squared differences are at most 2^53 (2^24 with float devices); false for larger weights, which are rounded."
  },
  {
   "property": "C106",
   "status": "proved",
   "theorems": [
    "SP.C106_memory",
    "SP.C106_written",
    "SP.C106_enough",
    "SP.C106_small",
    "SP.C106_too_long",
    "SP.C106_too_long_example"
   ],
   "note": ""
  },
  {
   "property": "C107",
   "status": "proved",
   "theorems": [
    "SP.C107_stream",
    "SP.C107_image",
    "SP.C107_no_error",
    "SP.C107_read_error",
    "SP.C107_directory"
   ],
   "note": ""
  },
  {
   "property": "C108",
   "status": "proved",
   "theorems": [
    "SP.C108_best_map",
    "SP.C108_powers",
    "SP.C108_powers_contracted"
   ],
   "note": ""
  },
  {
   "property": "C109",
   "status": "proved",
   "theorems": [
    "SP.C109_exact_device",
    "SP.C109_flushing",
    "SP.C109_float"
   ],
   "note": ""
  },
  {
   "property": "C110",
   "status": "proved",
   "theorems": [
    "SP.C110_near_optimal_flushing"
   ],
   "note": ""
  },
  {
   "property": "C111",
   "status": "proved",
   "theorems": [
    "SP.C111_outcome",
    "SP.C111_source",
    "SP.C111_no_wrong_map",
    "SP.C111_best_map",
    "SP.C111_ends"
   ],
   "note": ""
  },
  {
   "property": "C112",
   "status": "proved",
   "theorems": [
    "SP.C112_rows",
    "SP.C112_best_map",
    "SP.C112_equal_rows",
    "SP.C112_equal_rows_device",
    "SP.C112_written"
   ],
   "note": ""
  },
  {
   "property": "C113",
   "status": "partial",
   "theorems": [
    "SP.C113_best_map_partial",
    "SP.C113_upside_down_partial",
    "SP.C113_upside_down_refuted"
   ],
   "note": "False if several labelings are feasible at the least threshold: the first row decides. Proved that the two maps are equally good and that the map is turned upside down if it is the only feasible one."
  },
  {
   "property": "C114",
   "status": "proved",
   "theorems": [
    "SP.C114_no_change",
    "SP.C114_ends_after",
    "SP.C114_in_order",
    "SP.C114_every_round",
    "SP.C114_reproduced",
    "SP.C114_program",
    "SP.C114_double",
    "SP.C114_threads"
   ],
   "note": ""
  },
  {
   "property": "C115",
   "status": "proved",
   "theorems": [
    "SP.C115_only_output",
    "SP.C115_unchanged",
    "SP.C115_troubled",
    "SP.C115_only_inputs",
    "SP.C115_again",
    "SP.C115_any_output",
    "SP.C115_session",
    "SP.C115_origin",
    "SP.C115_order",
    "SP.C115_map_as_image",
    "SP.C115_same_file_twice"
   ],
   "note": ""
  },
  {
   "property": "C116",
   "status": "proved",
   "theorems": [
    "SP.C116_plain_rows",
    "SP.C116_limits",
    "SP.C116_one_column"
   ],
   "note": ""
  },
  {
   "property": "C117",
   "status": "partial",
   "theorems": [
    "SP.C117_best_map_partial",
    "SP.C117_more_levels_partial",
    "SP.C117_more_levels_device_partial",
    "SP.C117_more_levels_refuted"
   ],
   "note": "False: for images 4 2 6 7 and 7 0 7 2 a third level changes the map though it is not used. Proved if each pixel has its most similar pixel among those allowed by fewer levels; in any case the least threshold with fewer levels is not greater."
  },
  {
   "property": "C118",
   "status": "proved",
   "theorems": [
    "SP.C118_best_map",
    "SP.C118_rearranged",
    "SP.C118_rearranged_device",
    "SP.C118_other_rows",
    "SP.C118_not_found"
   ],
   "note": ""
  },
  {
   "property": "C119",
   "status": "proved",
   "theorems": [
    "SP.C119_neighbors",
    "SP.C119_neighbors_device",
    "SP.C119_neighbors_exact",
    "SP.C119_neighbors_device_exact",
    "SP.C119_not_found"
   ],
   "note": ""
  },
  {
   "property": "C120",
   "status": "proved",
   "theorems": [
    "SP.C120_best_map",
    "SP.C120_found_map",
    "SP.C120_found_row",
    "SP.C120_two_levels",
    "SP.C120_two_levels_exact",
    "SP.C120_two_levels_device",
    "SP.C120_program",
    "SP.C120_strong_not_found",
    "SP.C120_found_device",
    "SP.C120_program_device"
   ],
   "note": ""
  },
  {
   "property": "C121",
   "status": "proved",
   "theorems": [
    "SP.C121_threshold_of_rows",
    "SP.C121_threshold_in_turn",
    "SP.C121_one_row",
    "SP.C121_one_row_threads"
   ],
   "note": ""
  },
  {
   "property": "C122",
   "status": "proved",
   "theorems": [
    "SP.C122_launch_cl",
    "SP.C122_launch_cuda",
    "SP.C122_launch_32",
    "SP.C122_cuda",
    "SP.C122_find",
    "SP.C122_find_32",
    "SP.C122_program",
    "SP.C122_program_32"
   ],
   "note": ""
  },
  {
   "property": "C123",
   "status": "proved",
   "theorems": [
    "SP.C123_not_worse",
    "SP.C123_not_worse_device",
    "SP.C123_not_worse_exact",
    "SP.C123_not_worse_device_exact",
    "SP.C123_two_maps"
   ],
   "note": ""
  },
  {
   "property": "C124",
   "status": "proved",
   "theorems": [
    "SP.C124_program_device",
    "SP.C124_shift",
    "SP.C124_shift_device",
    "SP.C124_shift_exact",
    "SP.C124_shift_device_exact",
    "SP.C124_found_map",
    "SP.C124_program"
   ],
   "note": ""
  },
  {
   "property": "C125",
   "status": "proved",
   "theorems": [
    "SP.C125_clear",
    "SP.C125_clear_device",
    "SP.C125_clear_exact",
    "SP.C125_clear_device_exact",
    "SP.C125_found_map",
    "SP.C125_program",
    "SP.C125_program_device"
   ],
   "note": ""
  },
  {
   "property": "C126",
   "status": "proved",
   "theorems": [
    "SP.C126_noise",
    "SP.C126_noise_device",
    "SP.C126_noise_exact",
    "SP.C126_noise_device_exact",
    "SP.C126_program",
    "SP.C126_program_device"
   ],
   "note": ""
  },
  {
   "property": "C127",
   "status": "proved",
   "theorems": [
    "SP.C127_reliable",
    "SP.C127_reliable_device",
    "SP.C127_reliable_exact",
    "SP.C127_reliable_device_exact"
   ],
   "note": ""
  }
 ]
}
