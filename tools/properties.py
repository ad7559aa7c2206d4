#!/usr/bin/env python3
"""Writes ../properties.jsonl. One tuple per property: id, title, statement, quantifier, why, anchors."""
import json, os
P = []
def p(title, statement, quantifier, why, *anchors):
    P.append(dict(id="C%02d" % (len(P) + 1), title=title, statement=statement, quantifier=quantifier,
                  why_tests_cant=why, anchors=list(anchors)))
IDX = "lib/indexing.cpp"; CHK = "lib/indexing_checks.cpp"; DG = "lib/disparity_graph.cpp"; LP = "lib/lowest_penalties.cpp"
CG = "lib/constraint_graph.cpp"; LF = "lib/labeling_finder.cpp"; PG = "lib/pgm_io.cpp"; MN = "lib/main.cpp"; IM = "lib/image.cpp"
p("Pixels map one-to-one onto image cells",
  "For an image whose cell count fits the machine word, the pixel index of every pixel inside the image is inside the data array, two different pixels never share a cell, and every cell is the index of some pixel.",
  "all image widths and heights (64-bit), all pixels", "sizes are unbounded; a test fixes one small image", IDX + ": pixel_index", IDX + ": pixel_value")
p("Node availability slots never collide",
  "The slot used to store availability of a node (pixel, disparity) is inside the array allocated by the constraint graph, differs for different nodes, and every slot belongs to a node.",
  "all graph dimensions and all nodes", "aliasing shows only for particular dimension/coordinate combinations", IDX + ": node_index", CG + ": ConstraintGraph::ConstraintGraph")
p("Reparametrization slots never collide",
  "The slot used for the reparametrization of (node, neighbor direction) is inside the array allocated by the disparity graph, differs for different (node, direction) pairs, and every slot is used by one of them.",
  "all graph dimensions, nodes and the four directions", "aliasing shows only for particular dimension/coordinate combinations", IDX + ": reparametrization_index_fast", DG + ": DisparityGraph::DisparityGraph")
p("Neighborhood slots never collide",
  "The slot used for the lowest edge penalty of (pixel, neighbor direction) is inside the array allocated by the lowest-penalties table, differs for different pairs, and every slot is used.",
  "all graph dimensions, pixels and directions", "aliasing shows only for particular dimension/coordinate combinations", IDX + ": neighborhood_index_fast", LP + ": LowestPenalties::LowestPenalties")
p("Neighbor numbering is consistent",
  "For every neighborhood that exists, taking the neighbor by its number and then asking the number of that neighbor gives the number back, and conversely the pixel obtained from the number of an existing neighbor is that neighbor; a pixel that is not one of the four straight neighbors gets the number 4.",
  "all graphs, pixels, directions", "word wrap-around at the image border needs all coordinates", IDX + ": neighbor_index", IDX + ": neighbor_by_index")
p("Neighborhood existence is exactly 4-adjacency inside the image",
  "neighborhood_exists answers true if and only if both pixels lie inside the image and are straight neighbors; in particular it is symmetric.",
  "all graphs and all pairs of 64-bit pixels", "includes coordinates near 2^64 where increments wrap", CHK + ": neighborhood_exists", CHK + ": neighborhood_exists_fast")
p("Node existence is exact",
  "node_exists answers true if and only if the pixel lies in the image, the disparity is below the number of levels and the corresponding pixel of the left image lies in the same row of the left image.",
  "all graphs and all 64-bit nodes", "the boundary must be right for every coordinate", CHK + ": node_exists")
p("Edge existence is exact and symmetric",
  "edge_exists is true if and only if both nodes exist, their pixels are straight neighbors inside the image and, for horizontal neighbors, the matched left-image columns keep the order (the pixel further left is matched not further right than its right neighbor). Reversing an edge does not change the answer.",
  "all graphs and all edges", "two asymmetric branches must agree on every pair of disparities", CHK + ": edge_exists")
p("Image validation is exact",
  "For an image whose data array has width*height elements, fewer than 2^32, image_valid terminates and is true if and only if width, height and maximal value are positive and no intensity exceeds the maximal value.",
  "all images", "must hold for any size and any content; the loop counter is narrower than the size", IM + ": image_valid")
p("The disparity graph accepts exactly the meaningful inputs",
  "Constructing a disparity graph succeeds if and only if both images are valid, 1 < levels <= width, sizes and maximal values of the images agree, weights are not negative and at least one weight is not below machine epsilon; otherwise std::invalid_argument is thrown. On success the stored fields are the arguments and reparametrization is all zero with one slot per (node, direction).",
  "all pairs of images, level counts and weights", "a conjunction of nine conditions over unbounded inputs", DG + ": DisparityGraph::DisparityGraph")
p("No out-of-bounds access in the whole pipeline",
  "Starting from any accepted disparity graph whose arrays fit the address space, building lowest penalties, fetching thresholds, searching the threshold, building and solving the constraint graph, finding the labeling and building the disparity map never index an array out of bounds and never loop forever.",
  "all accepted graphs (any reparametrization), all thresholds", "out-of-bounds reads in std::vector::operator[] are silent", DG, LP, CG, LF)
p("Penalties of a fresh graph are the documented formulas",
  "On a freshly built graph, node penalty is cleanness*(R(x,y)-L(x+d,y))^2 and edge penalty is smoothness*(d-d')^2, and both are never negative.",
  "all graphs, nodes and edges", "holds for every image content", DG + ": node_penalty", DG + ": edge_penalty")
p("Edge penalty does not depend on direction",
  "In exact arithmetic the penalty of an edge equals the penalty of the reversed edge, for any reparametrization.",
  "all graphs, reparametrizations and neighboring nodes", "quantifies over all reparametrization vectors", DG + ": edge_penalty")
p("Reparametrization preserves the energy of every labeling",
  "In exact arithmetic the total penalty (all nodes plus all right and bottom edges) of any labeling is the same for any reparametrization whose entries towards non-existing neighbors are zero.",
  "all graphs, all reparametrizations, all labelings", "sums over arbitrary grids for arbitrary real vectors", DG + ": node_penalty", DG + ": edge_penalty", "include/disparity_graph.hpp: problem statement")
p("Sum of lowest penalties bounds every labeling's energy from below",
  "In exact arithmetic, the sum of lowest pixel penalties and lowest right/bottom neighborhood penalties stored by the lowest-penalties table is at most the total penalty of any labeling made of existing nodes and edges.",
  "all graphs, all reparametrizations, all labelings", "quantifies over all labelings of all graphs", LP + ": LowestPenalties::LowestPenalties", "include/disparity_graph.hpp: dual problem")
p("Lowest pixel penalty is the true minimum",
  "The stored lowest penalty of a pixel is attained by one of its existing nodes and no existing node of the pixel has a lower penalty.",
  "all graphs, reparametrizations, pixels", "minimum over any number of disparities near the right border", LP + ": calculate_lowest_pixel_penalty", LP + ": lowest_pixel_penalty")
p("Lowest neighborhood penalty is the true minimum",
  "The stored lowest penalty of two neighboring pixels is attained by an existing edge between them and no existing edge between them has a lower penalty, for all four directions.",
  "all graphs, reparametrizations, neighborhoods", "the set of existing edges depends on direction and border; the tests cover the right direction only", LP + ": calculate_lowest_neighborhood_penalty_fast", LP + ": lowest_neighborhood_penalty")
p("The constraint graph starts with exactly the nodes within the threshold",
  "After construction a node is available if and only if it exists and its penalty exceeds the lowest penalty of its pixel by at most the threshold.",
  "all graphs, reparametrizations, thresholds and nodes", "every slot, including slots of nodes that do not exist", CG + ": ConstraintGraph::ConstraintGraph")
p("A larger threshold never removes choices",
  "If t1 <= t2 then every node and every edge available at threshold t1 is available at t2, and solving the constraint problem at t2 leaves at least the nodes that solving at t1 leaves; so if the problem is reported solvable at t1 it is reported solvable at t2.",
  "all graphs and all pairs of thresholds", "monotonicity relates two executions", CG + ": ConstraintGraph::ConstraintGraph", CG + ": solve_csp")
p("Non-negative thresholds keep every pixel alive at the start",
  "With threshold >= 0 every pixel has at least one available node after construction; with a negative threshold no node is available.",
  "all graphs and thresholds", "needs the minimum to be attained for every pixel", CG + ": ConstraintGraph::ConstraintGraph")
p("Marking a node changes that node only",
  "make_node_available / make_node_unavailable set the availability of the given node and leave all other nodes as they were; make_all_nodes_unavailable clears all.",
  "all graphs and pairs of nodes", "frame condition over all other nodes", CG + ": make_node_available", CG + ": make_node_unavailable", CG + ": make_all_nodes_unavailable", CG + ": is_node_available")
p("Edge availability is exact",
  "For an edge between existing neighboring pixels, is_edge_available is true if and only if the edge exists, both its nodes are available and its penalty exceeds the lowest penalty of the neighborhood by at most the threshold.",
  "all constraint graphs and edges", "every combination of availability and direction", CG + ": is_edge_available")
p("A node is scheduled for removal exactly when it lost all edges to some neighbor",
  "should_remove_node is true if and only if the node is available and there is an existing neighboring pixel to which it has no available edge at all.",
  "all constraint graphs and existing nodes", "the search skips part of the disparities; no available edge may hide in the skipped part", CG + ": should_remove_node")
p("Processing a pixel removes exactly its unsupported nodes and reports it",
  "csp_process_pixel makes unavailable exactly the available nodes of that pixel which lack an available edge to some existing neighbor, leaves every other pixel alone, and returns true if and only if it removed something; doing it twice in a row removes nothing more.",
  "all constraint graphs and pixels", "frame condition and exactness over all availability states", CG + ": csp_process_pixel")
p("An iteration of the solver reports whether it changed something",
  "csp_solution_iteration returns true if and only if it made some available node unavailable.",
  "all constraint graphs, job counts and job numbers", "needs a comparison of states before and after for all states", CG + ": csp_solution_iteration")
p("Solving the constraint problem always terminates",
  "solve_csp returns after finitely many iterations (at most two) for every constraint graph.",
  "all constraint graphs", "termination for every input", CG + ": solve_csp")
p("Solving never removes a node that belongs to a solution",
  "Every node that belongs to some consistent labeling (one available node per pixel, all neighboring nodes connected by edges within the threshold) is still available after solve_csp, with any number of jobs.",
  "all constraint graphs, all labelings, any number of jobs", "quantifies over all labelings of all graphs", CG + ": solve_csp", CG + ": csp_solution_iteration")
p("'Unsolvable' is never reported wrongly",
  "If solve_csp returns false then no consistent labeling exists, and no node is left available.",
  "all constraint graphs", "non-existence over exponentially many labelings", CG + ": solve_csp")
p("'Solvable' means a labeling exists",
  "If solve_csp returns true then every pixel has an available node and a consistent labeling exists.",
  "all constraint graphs of fresh disparity graphs", "existence over exponentially many labelings", CG + ": solve_csp", "include/constraint_graph.hpp: csp-solution")
p("Solving removes every node that belongs to no solution",
  "After solve_csp every node left available has, towards each existing neighbor, at least one available edge (arc consistency), as documented.",
  "all constraint graphs", "fixed point over all states; small tests happen to converge in one sweep", CG + ": solve_csp", CG + ": csp_solution_iteration", "include/constraint_graph.hpp: csp-solution")
p("The fixed point of node removal does not depend on processing order",
  "Processing pixels in any order until no pixel changes always ends in the same set of available nodes: the largest subset of the start set in which every node has an available edge to each existing neighbor; and this end is always reached.",
  "all constraint graphs, all infinite or finite processing orders", "quantifies over all schedules", CG + ": csp_process_pixel", "lib/solve_csp.cl: csp_solution_iteration_gpu")
p("Arc consistency decides solvability",
  "For a fresh disparity graph, if at the fixed point of node removal every pixel still has an available node, then taking the lowest available disparity in each pixel gives a consistent labeling.",
  "all fresh disparity graphs, thresholds, availability states", "holds by a lattice argument on all graphs", "include/constraint_graph.hpp: csp-solution", CG + ": csp_process_pixel", CG + ": is_edge_available")
p("Parallel workers do not lose solutions",
  "When several workers run csp_solution_iteration at the same time, with any interleaving of their reads and writes of availability flags, every node of every consistent labeling stays available.",
  "all numbers of workers, all interleavings, all graphs", "interleavings cannot be enumerated by tests", CG + ": solve_csp", CG + ": csp_solution_iteration")
p("Pixel thresholds are complete, sorted and distinct",
  "fetch_pixel_available_penalties returns, in strictly ascending order, exactly the differences between penalties of existing nodes of the pixel and the given minimum.",
  "all graphs, pixels, minima", "set equality for any number of disparities near the border", LF + ": fetch_pixel_available_penalties")
p("Edge thresholds are complete, sorted and distinct",
  "fetch_edge_available_penalties returns, in strictly ascending order, exactly the differences between penalties of existing edges of the neighborhood and the given minimum.",
  "all graphs, neighborhoods, minima", "set equality over all disparity pairs", LF + ": fetch_edge_available_penalties")
p("All thresholds are complete, sorted and distinct",
  "fetch_available_penalties returns, in strictly ascending order, exactly the union of thresholds of all pixels and of all existing neighborhoods; the list is not empty.",
  "all graphs", "set equality over the whole grid", LF + ": fetch_available_penalties")
p("Threshold search returns the least threshold reported solvable",
  "For a strictly ascending non-empty candidate list whose last element is reported solvable by solve_csp, calculate_minimal_consistent_threshold returns a candidate for which solve_csp succeeds, and solve_csp fails for all smaller candidates; it calls solve_csp at most ceil(log2 n) times for n candidates.",
  "all graphs and candidate lists", "correctness of bisection for every length and every position of the boundary", LF + ": calculate_minimal_consistent_threshold")
p("The program never reports 'Cannot solve CSP problem'",
  "For every accepted disparity graph, the constraint graph built with the threshold found from the fetched candidates is reported solvable by solve_csp.",
  "all accepted graphs", "the error message says it should never happen; needs all inputs", MN + ": main", LF + ": calculate_minimal_consistent_threshold", LF + ": fetch_available_penalties")
p("The found threshold is the smallest consistent one",
  "The threshold returned by the pipeline is the least candidate for which a consistent labeling exists.",
  "all accepted graphs", "optimality over all labelings", LF + ": calculate_minimal_consistent_threshold", "include/labeling_finder.hpp: calculate_minimal_consistent_threshold")
p("Choosing the best node keeps exactly the best one",
  "choose_best_node leaves in the pixel exactly one of the nodes that were available, one with the lowest penalty among them (the lowest disparity among equals), touches no other pixel, and reports failure if and only if no node was available.",
  "all constraint graphs and pixels", "every pattern of penalties, including ties and negative values", LF + ": choose_best_node")
p("A returned labeling is a consistent labeling",
  "If find_labeling returns a graph then every pixel has exactly one available node, that node was available before, and every two neighboring pixels are connected by an available edge.",
  "all constraint graphs", "consistency over the whole grid for every input", LF + ": find_labeling")
p("A labeling is found whenever one exists",
  "For every accepted disparity graph the program's labeling step succeeds ('Cannot find labeling' never happens).",
  "all accepted graphs", "the error message says it should never happen; needs all inputs", LF + ": find_labeling", MN + ": main")
p("The disparity map shows the available disparity of each pixel",
  "build_disparity_map returns an image of the size of the inputs with maximal value equal to the number of levels, whose value in each pixel is the lowest available disparity; it throws std::logic_error if and only if some pixel has no available node; the result is a valid image.",
  "all constraint graphs", "every pixel and availability state", LF + ": build_disparity_map")
p("An ambiguous graph is rejected when building the map",
  "build_disparity_map throws std::logic_error when some pixel has two or more available nodes.",
  "all constraint graphs", "needs every availability state", LF + ": build_disparity_map")
p("End-to-end: the program's disparity map is consistent",
  "Whenever the program writes a disparity map, every value is below the number of levels and points inside the left image, in each row matched left columns never go backwards, node and edge penalties differ from the lowest ones by at most the found threshold.",
  "all pairs of input images and options", "whole-program property", MN + ": main", LF, CG)
p("Written images read back unchanged",
  "Writing a valid image with maximal value at most 65536 and reading the text back yields the same image and a stream without failbit.",
  "all valid images", "round trip for all sizes, including row wrapping after 11 numbers", PG + ": operator<<", PG + ": operator>>")
p("Written lines fit the plain PGM limit",
  "Every line of a written image with maximal value at most 65536 has at most 70 characters.",
  "all valid images", "all sizes and values", PG + ": operator<<", "include/pgm_io.hpp: MAX_NUMBERS_PER_ROW")
p("Nothing is written for an absent or invalid image",
  "Writing without an image or with an invalid one outputs nothing.",
  "all images", "all invalid images", PG + ": operator<<")
p("Reading does not depend on layout or comments",
  "For any sequence of tokens separated by arbitrary non-empty mixes of whitespace and comment lines, the result of reading is the same as for the tokens separated by single spaces.",
  "all token sequences and all separators", "unboundedly many layouts", PG + ": read_pgm_instruction", PG + ": operator>>")
p("A failed read leaves the previous image in place",
  "If reading fails (failbit) the image held by the reader is the one it held before.",
  "all input texts", "all malformed inputs", PG + ": operator>>")
p("Malformed headers and missing values are refused",
  "Reading fails with failbit if the magic is not P2, a header field or an intensity is missing or does not start like a number, or the maximal value exceeds 65536.",
  "all input texts", "all malformed inputs", PG + ": operator>>")
p("Trailing content is refused exactly when it is not whitespace or comments",
  "After the last intensity, the stream ends without failbit if and only if the rest of the text consists of whitespace and comments.",
  "all rests of input", "all texts", PG + ": check_file_end")
p("Reading any file is memory safe",
  "Reading never writes outside the image data, whatever the text.",
  "all input texts", "adversarial header values; silent memory corruption", PG + ": operator>>")
p("Launching without parameters shows the help",
  "If the program is launched without parameters or with --help, it prints the list of options.",
  "all command lines", "decision table over all option combinations", MN + ": main", "README.rst: Using the application")
p("Exit status tells success from failure",
  "The program returns 0 only if it wrote a disparity map.",
  "all command lines and inputs", "all error paths", MN + ": main")
p("Each GPU work item processes its own pixel and all pixels are covered",
  "The mapping from work item numbers to pixels used by the OpenCL kernel (and block/thread numbers of the CUDA kernel) is a bijection onto the pixels of the image.",
  "all image sizes", "all sizes", "lib/solve_csp.cl: csp_iteration", "lib/solve_csp.cu: csp_iteration_cuda", "lib/gpu_csp.cpp: csp_solution_cl")
p("The GPU solver reaches the unique fixed point under every schedule",
  "Whatever the order in which work items process their pixels inside each round, once a round changes nothing the availability is the largest arc-consistent subset of the initial one.",
  "all schedules of work items, all graphs", "schedules cannot be enumerated", "lib/solve_csp.cl: csp_solution_iteration_gpu", "lib/solve_csp.cu: csp_solution_iteration_gpu")
p("All GPU work items leave the round loop together",
  "All work items of the kernel agree on how many rounds they execute, so that they meet at every barrier.",
  "all schedules", "a race on the shared flag between the check and the next reset", "lib/solve_csp.cl: csp_solution_iteration_gpu", "lib/solve_csp.cu: csp_solution_iteration_gpu")
p("A disparity map obtained through the GPU path is consistent",
  "If after the GPU labeling the disparity map can be built, then it is a consistent labeling; and every pixel has at most one available node.",
  "all graphs, all schedules", "all inputs and schedules", "lib/gpu_csp.cpp: csp_solution_cl", "lib/cuda_csp.cu: csp_solution_cuda", LF + ": find_labeling_cl")
p("A produced disparity map is optimal",
  "Whenever a disparity map is produced, it is feasible at some threshold and no labeling at all is feasible at a smaller one, so the map minimizes the largest excess of penalties over the lowest ones.",
  "all accepted images and parameters", "would need an exact solver and all inputs", MN + ": main", LF + ": calculate_minimal_consistent_threshold", LF + ": find_labeling")
p("The whole program is safe",
  "For every command line and all files within reasonable size limits the program ends with status 0 or 1: no undefined behaviour, no infinite loop, no exception that is not caught.",
  "all command lines and file contents", "all inputs", MN + ": main")
p("What the program writes",
  "Whenever the program writes a file, it is the file given as output, both input files are images acceptable with the given options, and the written text reads back as an optimal consistent disparity map of the same size.",
  "all command lines and file contents", "all inputs, end to end", MN + ": main")
p("The error stream tells success from failure",
  "A disparity map is written if and only if nothing is printed to the error stream.",
  "all command lines and file contents", "all error paths", MN + ": main")
p("Numbers in options are used as given",
  "Weights and the number of disparity levels given as options are used as given, and anything else than a number is refused.",
  "all values of options", "all strings", MN + ": main")
p("A round without effect means that the work is done",
  "If in a round of parallel workers all of them report no change and no flag changes, then either no node is available or each pixel has an available node and each available node has an available edge to each neighbor; each row belongs to exactly one worker.",
  "all numbers of workers, all schedules, all graphs", "schedules cannot be enumerated", CG + ": solve_csp", CG + ": csp_solution_iteration")
p("Parallel solving ends",
  "solve_csp compiled with OpenMP returns for each schedule of its threads.",
  "all numbers of threads, all schedules, all graphs", "needs an unlucky schedule again and again; a test would hang", CG + ": solve_csp", CG + ": make_all_nodes_unavailable", "include/types.hpp: BOOL_ARRAY")
p("The result of parallel solving does not depend on the schedule",
  "All executions of solve_csp with the same number of threads and the same graph have the same result.",
  "all pairs of schedules, all graphs", "schedules cannot be enumerated", CG + ": solve_csp")
p("'Cannot solve CSP problem' never happens with several threads",
  "For every accepted disparity graph the constraint graph built for the threshold found by the parallel program is solved by it.",
  "all accepted graphs, all schedules", "two calls with the same graph have to be scheduled differently", CG + ": solve_csp", LF + ": calculate_minimal_consistent_threshold", MN + ": main")
p("A map produced by several threads is consistent and optimal",
  "Whenever the program compiled with OpenMP produces a disparity map, it is a labeling feasible at the found threshold, and no labeling is feasible at a smaller one, whatever the schedule of the threads in each call of solve_csp.",
  "all numbers of threads, all schedules, all accepted images", "schedules cannot be enumerated", CG + ": solve_csp", LF + ": find_labeling", MN + ": main")
p("Several threads stay inside the arrays",
  "Whatever the schedule, threads of the program compiled with OpenMP access availability flags only inside their array; the computation gives a map, ends with std::logic_error, or goes on forever.",
  "all numbers of threads, all schedules, all accepted images", "schedules cannot be enumerated", CG + ": solve_csp")
p("OpenMP with one thread is the sequential program",
  "With one thread solve_csp has exactly one outcome, that of the sequential program; with several threads executing them one after another in any order is one of the possible executions.",
  "all graphs, all numbers of threads", "all inputs", CG + ": solve_csp")
p("The chosen technology is used",
  "If the program is built with a technology and its name is given in any letter case, exactly this technology is announced and used; without the option the processor is used; any other name ends the program with status 1.",
  "all values of the option, all builds", "all builds and strings; GPU builds are not tested", MN + ": main")
p("Default values of options",
  "An option that is not given is the same as the option given with its default value: 1 for weights, the width of the left image for the number of levels.",
  "all command lines and files", "all command lines", MN + ": main", "README.rst: Using the application")
p("GPU kernels are safe and end",
  "No work item of the kernels reads or writes outside of the arrays, no execution of a kernel is infinite, and an execution that cannot go on has ended or its items miss each other at a barrier.",
  "all graphs, all schedules, all divisions into work groups", "schedules cannot be enumerated; needs a device", "lib/solve_csp.cl: csp_iteration", "lib/solve_csp.cu: csp_iteration_cuda")
p("Host loops of the GPU versions end",
  "The loop that launches the kernel until nothing changes ends, so finding of a labeling on GPU ends unless work items miss each other at a barrier.",
  "all graphs, all schedules, all divisions into work groups", "a test cannot show that a loop ends for all schedules", "lib/gpu_csp.cpp: csp_solution_cl", "lib/cuda_csp.cu: csp_solution_cuda")
p("What is found on GPU does not depend on the schedule",
  "All executions of the GPU version for the same images end in the same way.",
  "all pairs of schedules, all accepted images", "schedules cannot be enumerated", "lib/gpu_csp.cpp: csp_solution_cl", "lib/cuda_csp.cu: csp_solution_cuda")
p("The OpenCL host loop stops only when nothing can be removed",
  "When changed[1] is zero after a launch, each available node has an available edge to each neighbor.",
  "all graphs, all schedules, all divisions into work groups", "needs several work groups and an unlucky schedule", "lib/gpu_csp.cpp: csp_solution_cl", "lib/solve_csp.cl: csp_iteration")
p("A map found on GPU satisfies the constraints of the host",
  "A map found on GPU is feasible at the threshold found by the host, and no labeling is feasible at a smaller one.",
  "all accepted images, all schedules", "depends on rounding and schedules", "lib/gpu_csp.cpp: prepare_problem", "include/types.hpp: FLOAT", MN + ": main")
p("GPU and CPU give the same result",
  "For the same images and options the program ends in the same way with GPU and with CPU.",
  "all accepted images, all schedules", "needs all images; a difference is rare", LF + ": find_labeling", LF + ": find_labeling_cl", LF + ": find_labeling_cuda")
p("All produced maps are the same: the best labeling",
  "Each produced disparity map is the best of all labelings feasible at the least threshold, compared at the first pixel in the order of columns where they differ by the penalty of the node and then by the disparity. So whatever the numbers of threads, their schedules and the technology, two executions that produce a map for the same images produce the same one.",
  "all accepted images, all pairs of executions", "schedules cannot be enumerated, would need all labelings", MN + ": main", LF + ": find_labeling", LF + ": choose_best_node", CG + ": solve_csp")
p("CUDA uses the same data as the processor",
  "Although code for CUDA computes with 32-bit integers, for every graph it uses the same elements of arrays, nodes, edges and intensities as the processor does.",
  "all graphs, nodes, edges and intensities", "overflow happens only for graphs that do not fit in a test; needs a device", "include/types.hpp: ULONG", "lib/indexing.cu", "lib/indexing_checks.cu", "lib/disparity_graph.cpp: TO_FLOAT", "lib/cuda_csp.cu: prepare_problem")
p("Each pair of images gets a map from some technology",
  "For all accepted images a disparity map is found by the processor or by a device, with some number of threads, some schedule and some division into work groups.",
  "all accepted images, all technologies and schedules", "schedules cannot be enumerated; images without a map are rare", MN + ": main", LF + ": find_labeling", LF + ": choose_best_node", CG + ": solve_csp", "lib/gpu_csp.cpp: csp_solution_cl", "lib/cuda_csp.cu: csp_solution_cuda")
p("No data races",
  "At no moment of an execution of solve_csp by several threads, or of a GPU kernel, do two threads or work items access the same word of memory, at least one of them storing it.",
  "all graphs, all numbers of threads, all schedules, all divisions into work groups", "a race shows itself rarely or never on a given machine and compiler", CG + ": solve_csp", CG + ": csp_solution_iteration", "lib/solve_csp.cl: csp_iteration", "lib/solve_csp.cu: csp_iteration_cuda")
p("Options are understood as they are given",
  "Options may be given in any order, by the long name, its beginning or the letter, with the value in the same word or in the next one: the program uses exactly the values given. An option given twice, or a command line that is not one, ends the program with status 1 and a message.",
  "all command lines", "all lists of words", MN + ": main")
p("Arguments without a meaning are refused",
  "A word of the command line that is neither an option nor a value of an option ends the program with a message.",
  "all command lines", "all lists of words", MN + ": main")
p("The OpenCL program is built from all its files",
  "The source of the OpenCL program consists of the contents of all listed files in the order of the list; whatever function may run when a kernel runs is defined in them exactly once and does not call itself; if a file cannot be opened, the program is not built.",
  "all lists of files and contents", "needs a device; all contents of files", "lib/compile_cl.cpp: concatenate_files", "lib/compile_cl.cpp: create_program", "include/gpu_csp.hpp: SOURCE_FILES")
p("Images too large for CUDA are reported",
  "A block of threads is launched for each column, with a thread for each row. If the device does not allow that many, the program prints a message to the error stream, ends with status 1 and writes nothing; otherwise the limits of the device do not matter.",
  "all images, options and limits", "needs devices with different limits and images with more than 1024 rows", "lib/cuda_csp.cu: csp_solution_cuda", "lib/cuda_csp.cu: cudaCheckError", MN + ": main")
p("Failures of OpenCL are reported",
  "If OpenCL is used and fails (no device, sources that cannot be compiled, no memory, a kernel that cannot be launched), the program prints a message to the error stream, ends with status 1 and writes nothing.",
  "all images, options and failures", "failures cannot be caused in a test", LF + ": find_labeling_cl", "lib/gpu_csp.cpp: build_csp_program", "lib/gpu_csp.cpp: csp_solution_cl", MN + ": main")
p("The whole map is written",
  "If the program ends with status 0 and prints nothing to the error stream, then the output file contains the whole disparity map.",
  "all images and options, all file systems", "a full device is not a part of a test", MN + ": main", PG + ": operator<<")
p("Penalties with double are finite",
  "Whatever the images and the weights, no computation of a penalty overflows: every penalty of a node or an edge and every lowest penalty is a nonnegative integer not greater than 2^192 (neither infinity, nor NaN, nor negative zero), and every threshold to be tried is finite.",
  "all images, numbers of levels and weights of 64 bits", "2^64 values of each number", "include/types.hpp: FLOAT", "lib/disparity_graph.cpp: node_penalty", "lib/disparity_graph.cpp: edge_penalty", "lib/lowest_penalties.cpp", LF + ": fetch_available_penalties")
p("The program with double",
  "With numbers of IEEE 754 (rounding, signed zeros, infinities, NaN) the program does what it does with numbers that have the laws of order: it ends with an exit status, a written file is the best map for the penalties computed with double, and it does not depend on threads and schedules.",
  "all command lines, files, numbers of threads and schedules", "all inputs and schedules", "include/types.hpp: FLOAT", MN + ": main", CG + ": solve_csp", LF + ": find_labeling")
p("Rounding does not change the map",
  "If weights multiplied by squares of differences of intensities and of levels are at most 2^53, then the map found by the processor is the best one in exact arithmetic.",
  "all images and weights in the range, all numbers of threads and schedules", "all inputs", "include/types.hpp: FLOAT", MN + ": main", "lib/disparity_graph.cpp: node_penalty", "lib/disparity_graph.cpp: edge_penalty")
p("float on devices does not change the map",
  "Although devices compute with float, the map found by OpenCL or CUDA is the best one in exact arithmetic.",
  "all images and weights, all schedules", "needs a device; a difference is rare", "include/types.hpp: FLOAT", "lib/gpu_csp.cpp: prepare_problem", "lib/cuda_csp.cu: prepare_problem", MN + ": main")
p("Kernels of CUDA with 32 bits",
  "ULONG is unsigned in the code compiled for CUDA, and intensities are converted as signed numbers. If 4 * width * height * levels is at most 2^32, then nothing depends on that: the program does the same as with 64-bit kernels, and the file written is the best map.",
  "all images and options in the range, all schedules, divisions into blocks and limits of devices", "needs a device; all inputs and schedules", "include/types.hpp: ULONG", "lib/cuda_csp.cu: csp_solution_cuda", "lib/solve_csp.cu: csp_iteration_cuda", "lib/solve_csp.cu: choose_best_node_gpu", "lib/disparity_graph.cpp: TO_FLOAT", "lib/indexing.cpp", MN + ": main")
p("Images of one row",
  "For images of one row neither the number of threads nor their speed matters and there are no data races; solve_csp returns true if and only if there is a labeling; the found threshold is the least one at which there is a labeling.",
  "all images of one row, all numbers of threads and schedules", "all inputs and schedules", CG + ": solve_csp", CG + ": csp_solution_iteration", LF + ": calculate_minimal_consistent_threshold", LF + ": find_labeling", MN + ": main")
p("Which images of one row get a map",
  "For images of one row a map is written if and only if it is the map of the best candidates (in column x those compatible with the choice in the previous column that can be continued x + 1 columns to the right), and it is then the best map; otherwise the program says that it cannot find a labeling. What the processor finds is also found by a device with a single work group, unless its work items miss each other at a barrier.",
  "all images of one row, all numbers of threads and schedules", "all inputs and schedules", LF + ": find_labeling", LF + ": choose_best_node", CG + ": solve_csp", "lib/gpu_csp.cpp: csp_solution_cl", "lib/cuda_csp.cu: csp_solution_cuda", MN + ": main")
p("Contraction of a * b + c",
  "Compilers of C++ and CUDA may compute a * b + c as one operation with a single rounding. Nothing depends on that: whichever operations are contracted on the processor and on devices, the program does what it does without contraction, whatever the weights.",
  "all command lines, files, weights and schedules, all choices of operations to be contracted", "one compiler makes one choice", "include/types.hpp: FLOAT", "lib/disparity_graph.cpp: node_penalty", "lib/disparity_graph.cpp: edge_penalty", MN + ": main", "lib/solve_csp.cu: csp_iteration_cuda", "lib/solve_csp.cl: csp_iteration")
p("Rounding makes the map almost optimal",
  "Whatever the images and the weights, the map found by the processor with double is almost the best in exact arithmetic: if another labeling is feasible at a threshold, then the map is feasible at this threshold increased by 2^-47 of the largest possible penalty (the larger of cleanness * maxval^2 and smoothness * levels^2).",
  "all images, numbers of levels and weights of 64 bits, all numbers of threads and schedules", "all inputs; exact arithmetic is not available in tests", "include/types.hpp: FLOAT", "lib/disparity_graph.cpp: node_penalty", "lib/disparity_graph.cpp: edge_penalty", LF + ": calculate_minimal_consistent_threshold", MN + ": main")
p("float on devices makes the map almost optimal",
  "Whatever the images and the weights, a map found by OpenCL or CUDA with float is almost the best in exact arithmetic: if another labeling is feasible at a threshold, then the map is feasible at this threshold increased by 2^-19 of the largest possible penalty (the larger of cleanness * maxval^2 and smoothness * levels^2).",
  "all images, numbers of levels and weights of 64 bits, all schedules and divisions into work groups", "needs a device; all inputs and schedules; exact arithmetic is not available in tests", "include/types.hpp: FLOAT", "lib/disparity_graph.cpp: edge_penalty", "lib/gpu_csp.cpp: csp_solution_cl", "lib/cuda_csp.cu: csp_solution_cuda", LF + ": find_labeling_cl", MN + ": main")
p("Devices with float find what the processor finds",
  "If the program writes a map for images of one row without devices, then it writes the same map with a device that computes with float in a single work group, unless work items miss each other at a barrier or the device fails.",
  "all images of one row, all weights, all schedules", "needs a device; a difference is rare", "include/types.hpp: FLOAT", "lib/gpu_csp.cpp: csp_solution_cl", "lib/cuda_csp.cu: csp_solution_cuda", LF + ": find_labeling_cl", LF + ": choose_best_node", MN + ": main")
p("Ideal labelings are found",
  "If the first of the best matches of each pixel satisfy the constraint on neighbors and are all equal (or smoothness is zero), then the program writes exactly them, whatever the weights, threads, technology and schedules, unless threads go on forever, work items of a device miss each other at a barrier or the device fails. In particular, the map for equal images consists of zeros.",
  "all images with such a labeling, all weights of 64 bits, all numbers of threads, technologies and schedules", "all inputs and schedules; needs a device", LF + ": find_labeling", LF + ": find_labeling_cl", LF + ": find_labeling_cuda", LF + ": choose_best_node", LF + ": calculate_minimal_consistent_threshold", CG + ": solve_csp", "include/types.hpp: FLOAT", MN + ": main")
p("Failures of CUDA",
  "Whatever calls of CUDA fail (allocation, copying, launches, synchronization, a lost device), the program compiled without assert does what it does if nothing fails, or prints the message about CUDA, or says that there is no label for a pixel, or a kernel has work items that miss each other at a barrier; in the latter cases nothing is written. With assert the process may also be ended by it, only after a failure. If the device cannot be prepared, then the failure is always noticed.",
  "all failures of calls in any order, all inputs and schedules", "needs a device that fails", "lib/cuda_csp.cu: cdpAssert", "lib/cuda_csp.cu: cudaCheckError", "lib/cuda_csp.cu: prepare_problem", "lib/cuda_csp.cu: free_problem", "lib/cuda_csp.cu: csp_solution_cuda", LF + ": find_labeling_cuda", MN + ": main")
p("How many times solve_csp is called",
  "The threshold takes at most the binary logarithm of the number of candidates (rounded up) calls of solve_csp, one call follows, and find_labeling makes at most one call for each pixel, exactly one if a labeling is found: at most c + 1 + width * height calls, where width * height * (levels + 4 * levels^2) <= 2^c. Each of them makes at most two rounds if there is one thread or flags do not share words.",
  "all inputs, all arithmetics of FLOAT, all results of solve_csp, all technologies", "all inputs and schedules", LF + ": fetch_available_penalties", LF + ": calculate_minimal_consistent_threshold", LF + ": find_labeling", CG + ": solve_csp", MN + ": main")
p("Only differences of intensities matter",
  "If both images are replaced by others of the same size such that the absolute value of the difference between each pixel of the right image and each pixel of the left one stays the same (both are made lighter, or both are replaced by negatives), then the program may do with the new images exactly what it does with the old ones, whatever the weights, levels, threads, technology and schedules; without devices the written text is the same in all executions that write.",
  "all images, weights, levels, numbers of threads, technologies and schedules", "all pairs of images and schedules; needs a device", "lib/disparity_graph.cpp: node_penalty", LP + ": calculate_lowest_pixel_penalty", LF + ": choose_best_node", "lib/gpu_csp.cpp: csp_solution_cl", "include/types.hpp: FLOAT", MN + ": main")
p("Only the ratio of weights matters",
  "Two executions with the same images and levels and with weights in the same ratio write the same map; the same map is written if intensities of both images are a times greater and the ratio of cleanness to smoothness is a^2 times smaller.",
  "all images, levels, threads and schedules, all weights in the same ratio", "all weights; large weights are rounded", "lib/disparity_graph.cpp: node_penalty", "lib/disparity_graph.cpp: edge_penalty", LF + ": fetch_available_penalties", LF + ": calculate_minimal_consistent_threshold", LF + ": choose_best_node", "include/types.hpp: FLOAT", MN + ": main")
p("Not enough memory",
  "Whatever allocations fail, the program does exactly what it does with enough memory, or it writes nothing, prints the message about std::bad_alloc and ends with status 1. The only exception: if width * height * 4 * levels is greater than a vector may be long (2^60 - 1), then it prints a message about a logic error and ends with status 0.",
  "all inputs, all failures of allocations in any order, all technologies and results of solve_csp", "allocations do not fail in tests; arrays of 2^60 elements are impossible", "lib/disparity_graph.cpp: DisparityGraph", LP + ": LowestPenalties", LF + ": fetch_available_penalties", CG + ": ConstraintGraph", LF + ": build_disparity_map", MN + ": main")
p("Read errors",
  "If reading of one of the files fails at any place (also for a directory given instead of a file, or if there is no memory for a word), then the program prints a message and writes nothing, whatever part of a word is left by the failure. The failure of a stream is never taken for its end. Files are without undefined behaviour as in C53.",
  "all files, all places of errors, all remainders of words", "devices do not fail in tests", PG + ": read_pgm_instruction", PG + ": check_file_end", PG + ": operator>>", MN + ": read_image", MN + ": main")
p("Weights multiplied by powers of two",
  "If weights are multiplied by the same power of two, positive or negative, then the same map is written, even if weights or penalties are rounded. The same if intensities are multiplied by a power of two and weights are such that all penalties are multiplied by the same power.",
  "all images, all weights, all threads and schedules, all ways of contraction of expressions", "weights may be any numbers of 64 bits", MN + ": main", DG + ": node_penalty", DG + ": edge_penalty", LF + ": choose_best_node")
p("Devices that are exact for integers",
  "If operations of a device on integers up to 2^k are exact as long as results are such integers, whatever the device does with other numbers (subnormal numbers replaced by zeros, another direction of rounding, integers instead of float), and weights multiplied by squares of differences of intensities or levels are at most 2^k, k <= 53, then the file written by the program is the best map in exact arithmetic.",
  "all arithmetics of devices that are exact for integers, all inputs in the range, all schedules", "needs devices of all kinds; the default device of OpenCL is taken, whatever it is", "lib/gpu_csp.cpp: csp_solution_cl", "lib/gpu_csp.cpp: prepare_problem", "lib/compile_cl.cpp: create_program", "include/types.hpp: FLOAT", LF + ": find_labeling_cl", MN + ": main")
p("Devices without subnormal numbers",
  "If a device may replace subnormal operands and results by zeros, whichever and of whatever sign, then the map it finds is worse than any other labeling at most by 2^-19 of the largest penalty, as with float of IEEE 754, whatever the images and weights.",
  "all choices of numbers replaced by zeros, all inputs and schedules", "depends on the device and its compiler", "lib/gpu_csp.cpp: csp_solution_cl", "lib/compile_cl.cpp: create_program", "include/types.hpp: FLOAT", LF + ": find_labeling_cl", MN + ": main")
p("Whatever fails, no wrong map is written",
  "Let the processor compute with double and devices with float. Whatever combination of failures happens in one execution - reading fails at any places, any allocations fail, OpenCL fails, calls of CUDA fail or the device has limits, there is no room for the output - and whatever the order of threads and work items, what is written is the beginning of the text of a map that is worse than any other at most by 2^-19 of the largest penalty (the best map in the range of C93), and it is the whole text if there is room for it. The program ends with status 0 or 1, except for what is known from C91.",
  "all combinations of failures, all inputs and schedules (reparametrizations of at most 2^32 elements for CUDA)", "combinations of failures are never tested", PG + ": operator>>", "lib/gpu_csp.cpp: csp_solution_cl", "lib/cuda_csp.cu: csp_solution_cuda", LF + ": find_labeling_cuda", MN + ": read_image", MN + ": main")
p("Images of equal rows",
  "If all rows of the left image are equal, and so are all rows of the right one, then all rows of the written map are equal, and they are equal to the map written for images that consist of one such row, whatever the weights, levels, threads and schedules (with devices: if weights multiplied by squares of differences of intensities or levels are at most 2^24).",
  "all images of equal rows, all weights, levels, threads and schedules", "all images and schedules", LF + ": choose_best_node", LF + ": find_labeling", LF + ": calculate_minimal_consistent_threshold", "lib/disparity_graph.cpp: edge_penalty", "lib/disparity_graph.cpp: neighborhood_exists", CG + ": solve_csp", MN + ": main")
p("Images turned upside down",
  "If both images are turned upside down, then the map is turned upside down.",
  "all images, weights, levels, threads and schedules", "all images; a difference needs equally good labelings", LF + ": choose_best_node", LF + ": find_labeling", LF + ": calculate_minimal_consistent_threshold", "lib/disparity_graph.cpp: node_penalty", MN + ": main")
p("When solve_csp goes on forever",
  "The loop of solve_csp may go on forever only if cleared flags are brought back in every round: as soon as one round that reports a change ends the way it could end with each flag in a word of its own (for example since threads did not overlap in it), the next round is the last one. The loop may go on forever iff after some rounds there is a state that a round reporting a change takes to itself. If no call of solve_csp goes on forever, then the program without devices ends with status 0 or 1, whatever the command line, the files (without undefined behaviour as in C53), the threads and schedules.",
  "all graphs, numbers of threads and schedules, all arithmetics of FLOAT", "needs particular schedules in each of infinitely many rounds", CG + ": solve_csp", CG + ": csp_solution_iteration", CG + ": make_all_nodes_unavailable", CG + ": make_node_unavailable", LF + ": find_labeling", MN + ": main")
p("What happens to files",
  "After an execution all files are as before it, but for the output, and also the output if no map is written. What is written depends only on contents of the two images. If the output is none of the images, then the same command gives the same map again; the output may also be one of the images (the program reads both of them before it is opened), and the map is the same as with any other output. Executions none of which reads or writes what the other one writes may be in any order. A map written by the program, used as both images, is read and gives a map of zeros.",
  "all files, command lines, sequences of executions; threads and schedules as in C91 for the last statement", "all files and sequences of executions; tests never start the program", MN + ": main", MN + ": read_image", PG + ": operator<<", PG + ": operator>>")
p("Pixels that cannot have another disparity",
  "If each row of the left image has one intensity, then a written map is of zeros, whatever the right image. In each map the value at a pixel is less than the number of columns from the pixel to the end of the row and less than the maximal value, the last column is of zeros, and a value exceeds the next one in its row at most by one. For images of one column no map is written.",
  "all images, weights, levels, threads and schedules; double on the processor and float on devices", "all images and weights", DG + ": node_penalty", "lib/disparity_graph.cpp: neighborhood_exists", LF + ": build_disparity_map", LF + ": choose_best_node", "lib/disparity_graph.cpp: DisparityGraph", MN + ": main")
p("More levels than needed change nothing",
  "If the map written with more disparity levels has no disparities for which fewer levels are too few, then the map written with fewer levels has the same disparities.",
  "all images, weights, levels, threads and schedules", "all images; a difference needs a pixel whose best match is used by neither map", LP + ": calculate_lowest_pixel_penalty", LF + ": calculate_minimal_consistent_threshold", LF + ": choose_best_node", CG + ": ConstraintGraph", MN + ": main")
p("Without smoothness rows may be rearranged",
  "If smoothness is zero and rows of both images are rearranged in the same way (exchanged, repeated), then rows of the written map are rearranged in this way (with devices: if cleanness multiplied by squares of differences of intensities is at most 2^24). Rows influence each other only by the common threshold; it depends on the order of rows whether a map is found.",
  "all images, rearrangements, numbers of threads and schedules", "all images, rearrangements and schedules", "lib/disparity_graph.cpp: edge_penalty", LF + ": choose_best_node", LF + ": calculate_minimal_consistent_threshold", CG + ": solve_csp", MN + ": main")
p("How much neighbors of the map may differ",
  "Let m be the largest difference of intensities at the same place of the two images, c cleanness and s smoothness. In each written map values of neighbors differ by such e that s e^2 <= c m^2, and no pixel of the map is worse than with another disparity by more than c m^2; so if s > c m^2, then the map is of zeros. For weights multiplied by squares of differences of intensities or levels up to 2^53 (2^24 with float devices) exactly, in general up to 2^-47 (2^-19) of the largest penalty.",
  "all images, weights, levels, threads and schedules", "all images and weights", "lib/disparity_graph.cpp: edge_penalty", "lib/disparity_graph.cpp: node_penalty", LF + ": calculate_minimal_consistent_threshold", LF + ": find_labeling", LF + ": build_disparity_map", MN + ": main")
p("Two disparity levels",
  "If a map with two levels is written, then it is known exactly: if some pixel loses with disparity 0 instead of 1 at least as much as smoothness, then each pixel has the better of its two disparities (0 if they are equal or there is only one), otherwise the map is of zeros. In the first case one thread always finds the map, whatever the images and weights; in the second one the program may end with Cannot find labeling. The same with devices, if they do not fail and weights multiplied by squares of differences of intensities or levels are at most 2^24.",
  "all images, weights, threads and schedules; one thread for the second statement", "all images and weights", DG + ": node_penalty", DG + ": edge_penalty", LF + ": calculate_minimal_consistent_threshold", LF + ": find_labeling", LF + ": choose_best_node", CG + ": solve_csp", MN + ": main")
p("The found threshold and rows",
  "If threads work one after another (in particular if there is one thread), then at the threshold found by calculate_minimal_consistent_threshold each row, if there were no others, has a labeling, and at no smaller threshold the whole image has one. So for images of one row the threshold is the least one that has a labeling.",
  "all images, weights, levels, numbers of threads", "all images; needs all labelings", LF + ": calculate_minimal_consistent_threshold", CG + ": solve_csp", CG + ": csp_solution_iteration", CG + ": csp_process_pixel")
p("Memory that is not initialised",
  "CUDA allocates changed and never initialises it. What is in the cells of changed before a launch does not matter, neither for OpenCL nor for CUDA: possible outcomes of the launch are the same. So each execution of csp_solution_cuda with garbage in changed is also possible with a zero there, and everything proved of CUDA holds. The same with kernels of 32 bits, even if sizes do not fit.",
  "all graphs, contents of memory, schedules of work items and divisions into groups", "contents of memory that is not initialised cannot be controlled by tests", "lib/cuda_csp.cu: prepare_problem", "lib/cuda_csp.cu: csp_solution_cuda", "lib/solve_csp.cu: csp_solution_iteration_gpu", "lib/solve_csp.cl: csp_iteration", "lib/gpu_csp.cpp: csp_solution_cl")
p("The map and other labelings",
  "Let the misfit of a labeling be the most by which in some pixel the square of the difference of intensities exceeds that with another disparity, and its roughness the greatest square of a difference between neighbors. With cleanness c and smoothness s, if a labeling has misfit a and roughness b, then the written map has misfit at most max(c a, s b) / c and roughness at most max(c a, s b) / s; so no labeling is better than the map both in misfit and in roughness. In particular, of two maps written for the same images with any weights neither is better in both respects. Exactly for weights multiplied by squares of differences of intensities or levels up to 2^53 (2^24 with float devices), in general up to 2^-47 (2^-19) of the largest penalty.",
  "all images, weights, levels, labelings, threads and schedules", "all images, weights and labelings", "lib/disparity_graph.cpp: edge_penalty", "lib/disparity_graph.cpp: node_penalty", LF + ": calculate_minimal_consistent_threshold", LF + ": find_labeling", LF + ": build_disparity_map", MN + ": main")
p("Shifted images",
  "Let the right image be the left one shifted by k columns (k less than the number of levels), let squares of differences between the last k columns of the right image and the last pixel of the left row be at most a, and let matches with other disparities be bad: cleanness times the square of the difference exceeds both cleanness times a and smoothness. Then the written map is k, except for the last k columns, where it goes down to zero by one. Exactly for weights multiplied by squares of differences of intensities or levels up to 2^53 (2^24 with float devices), in general if the matches are worse by another 2^-47 (2^-19) of the largest penalty. In the exact ranges one thread always finds this map, and so do devices that do not fail.",
  "all images, shifts, weights, levels, threads and schedules; one thread for the second statement", "all images, shifts and weights", "lib/disparity_graph.cpp: node_penalty", "lib/disparity_graph.cpp: edge_penalty", "lib/disparity_graph.cpp: neighborhood_exists", LF + ": calculate_minimal_consistent_threshold", LF + ": find_labeling", LF + ": build_disparity_map", CG + ": solve_csp", MN + ": main")
p("Clear labelings are found",
  "Let b be the greatest square of a difference between neighbors of a labeling. If in each pixel every other disparity is worse than that of the labeling by more than smoothness times b (the penalty being cleanness times the square of the difference of intensities), then the written map is this labeling. Exactly for weights multiplied by squares of differences of intensities or levels up to 2^53 (2^24 with float devices), in general if other disparities are worse by another 2^-47 (2^-19) of the largest penalty. In the exact ranges one thread always finds the labeling, and so do devices that do not fail.",
  "all images, labelings, weights, levels, threads and schedules; one thread for the second statement", "all images, labelings and weights", "lib/disparity_graph.cpp: node_penalty", "lib/disparity_graph.cpp: edge_penalty", LF + ": calculate_minimal_consistent_threshold", LF + ": find_labeling", LF + ": choose_best_node", LF + ": build_disparity_map", CG + ": solve_csp", MN + ": main")
p("Noise does not change the map",
  "Let there be a scene without noise: a labeling and two images such that corresponding pixels are equal, and pixels connected by other disparities differ by at least D. Let intensities of the images that are read differ from those of the scene by at most n, where 2 n is at most D, and let b be the greatest square of a difference between neighbors of the labeling. If cleanness times D (D - 4 n) exceeds smoothness times b, then the written map is the labeling of the scene. Exactly for weights multiplied by squares of differences of intensities or levels up to 2^53 (2^24 with float devices), in general if it exceeds also another 2^-47 (2^-19) of the largest penalty. In the exact ranges one thread always finds the labeling, and so do devices that do not fail. With noise above a quarter of D the map may be another one.",
  "all scenes, labelings, noise, weights, levels, threads and schedules; one thread for the second statement", "all scenes, noise and weights", "lib/disparity_graph.cpp: node_penalty", "lib/disparity_graph.cpp: edge_penalty", LF + ": calculate_minimal_consistent_threshold", LF + ": find_labeling", LF + ": build_disparity_map", CG + ": solve_csp", MN + ": main")
p("Reliable pixels",
  "Let some labeling have misfit a and roughness b (as in the property of the map and other labelings), and let t be the greater of cleanness times a and smoothness times b. If in a pixel all disparities but one are worse than it by more than t, then the written map has this disparity there, whatever other pixels are. If t is less than smoothness times (k + 1)^2, then any other pixel of the map differs from this disparity at most by k times the number of steps between the pixels. Exactly for weights multiplied by squares of differences of intensities or levels up to 2^53 (2^24 with float devices), in general with t greater by 2^-47 (2^-19) of the largest penalty.",
  "all images, labelings, pixels, weights, levels, threads and schedules", "all images, labelings and weights", "lib/disparity_graph.cpp: node_penalty", "lib/disparity_graph.cpp: edge_penalty", LF + ": calculate_minimal_consistent_threshold", LF + ": find_labeling", LF + ": build_disparity_map", MN + ": main")
out = os.path.join(os.path.dirname(os.path.abspath(__file__)), "..", "properties.jsonl")
with open(out, "w") as f:
    for q in P:
        f.write(json.dumps(q) + "\n")
print(len(P))
