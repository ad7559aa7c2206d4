{"id": "C01", "title": "Pixels map one-to-one onto image cells", "statement": "For an image whose cell count fits the machine word, the pixel index of every pixel inside the image is inside the data array, two different pixels never share a cell, and every cell is the index of some pixel.", "quantifier": "all image widths and heights (64-bit), all pixels", "why_tests_cant": "sizes are unbounded; a test fixes one small image", "anchors": ["lib/indexing.cpp: pixel_index", "lib/indexing.cpp: pixel_value"]}
{"id": "C02", "title": "Node availability slots never collide", "statement": "The slot used to store availability of a node (pixel, disparity) is inside the array allocated by the constraint graph, differs for different nodes, and every slot belongs to a node.", "quantifier": "all graph dimensions and all nodes", "why_tests_cant": "aliasing shows only for particular dimension/coordinate combinations", "anchors": ["lib/indexing.cpp: node_index", "lib/constraint_graph.cpp: ConstraintGraph::ConstraintGraph"]}
{"id": "C03", "title": "Reparametrization slots never collide", "statement": "The slot used for the reparametrization of (node, neighbor direction) is inside the array allocated by the disparity graph, differs for different (node, direction) pairs, and every slot is used by one of them.", "quantifier": "all graph dimensions, nodes and the four directions", "why_tests_cant": "aliasing shows only for particular dimension/coordinate combinations", "anchors": ["lib/indexing.cpp: reparametrization_index_fast", "lib/disparity_graph.cpp: DisparityGraph::DisparityGraph"]}
{"id": "C04", "title": "Neighborhood slots never collide", "statement": "The slot used for the lowest edge penalty of (pixel, neighbor direction) is inside the array allocated by the lowest-penalties table, differs for different pairs, and every slot is used.", "quantifier": "all graph dimensions, pixels and directions", "why_tests_cant": "aliasing shows only for particular dimension/coordinate combinations", "anchors": ["lib/indexing.cpp: neighborhood_index_fast", "lib/lowest_penalties.cpp: LowestPenalties::LowestPenalties"]}
{"id": "C05", "title": "Neighbor numbering is consistent", "statement": "For every neighborhood that exists, taking the neighbor by its number and then asking the number of that neighbor gives the number back, and conversely the pixel obtained from the number of an existing neighbor is that neighbor; a pixel that is not one of the four straight neighbors gets the number 4.", "quantifier": "all graphs, pixels, directions", "why_tests_cant": "word wrap-around at the image border needs all coordinates", "anchors": ["lib/indexing.cpp: neighbor_index", "lib/indexing.cpp: neighbor_by_index"]}
{"id": "C06", "title": "Neighborhood existence is exactly 4-adjacency inside the image", "statement": "neighborhood_exists answers true if and only if both pixels lie inside the image and are straight neighbors; in particular it is symmetric.", "quantifier": "all graphs and all pairs of 64-bit pixels", "why_tests_cant": "includes coordinates near 2^64 where increments wrap", "anchors": ["lib/indexing_checks.cpp: neighborhood_exists", "lib/indexing_checks.cpp: neighborhood_exists_fast"]}
{"id": "C07", "title": "Node existence is exact", "statement": "node_exists answers true if and only if the pixel lies in the image, the disparity is below the number of levels and the corresponding pixel of the left image lies in the same row of the left image.", "quantifier": "all graphs and all 64-bit nodes", "why_tests_cant": "the boundary must be right for every coordinate", "anchors": ["lib/indexing_checks.cpp: node_exists"]}
{"id": "C08", "title": "Edge existence is exact and symmetric", "statement": "edge_exists is true if and only if both nodes exist, their pixels are straight neighbors inside the image and, for horizontal neighbors, the matched left-image columns keep the order (the pixel further left is matched not further right than its right neighbor). Reversing an edge does not change the answer.", "quantifier": "all graphs and all edges", "why_tests_cant": "two asymmetric branches must agree on every pair of disparities", "anchors": ["lib/indexing_checks.cpp: edge_exists"]}
{"id": "C09", "title": "Image validation is exact", "statement": "For an image whose data array has width*height elements, fewer than 2^32, image_valid terminates and is true if and only if width, height and maximal value are positive and no intensity exceeds the maximal value.", "quantifier": "all images", "why_tests_cant": "must hold for any size and any content; the loop counter is narrower than the size", "anchors": ["lib/image.cpp: image_valid"]}
{"id": "C10", "title": "The disparity graph accepts exactly the meaningful inputs", "statement": "Constructing a disparity graph succeeds if and only if both images are valid, 1 < levels <= width, sizes and maximal values of the images agree, weights are not negative and at least one weight is not below machine epsilon; otherwise std::invalid_argument is thrown. On success the stored fields are the arguments and reparametrization is all zero with one slot per (node, direction).", "quantifier": "all pairs of images, level counts and weights", "why_tests_cant": "a conjunction of nine conditions over unbounded inputs", "anchors": ["lib/disparity_graph.cpp: DisparityGraph::DisparityGraph"]}
{"id": "C11", "title": "No out-of-bounds access in the whole pipeline", "statement": "Starting from any accepted disparity graph whose arrays fit the address space, building lowest penalties, fetching thresholds, searching the threshold, building and solving the constraint graph, finding the labeling and building the disparity map never index an array out of bounds and never loop forever.", "quantifier": "all accepted graphs (any reparametrization), all thresholds", "why_tests_cant": "out-of-bounds reads in std::vector::operator[] are silent", "anchors": ["lib/disparity_graph.cpp", "lib/lowest_penalties.cpp", "lib/constraint_graph.cpp", "lib/labeling_finder.cpp"]}
{"id": "C12", "title": "Penalties of a fresh graph are the documented formulas", "statement": "On a freshly built graph, node penalty is cleanness*(R(x,y)-L(x+d,y))^2 and edge penalty is smoothness*(d-d')^2, and both are never negative.", "quantifier": "all graphs, nodes and edges", "why_tests_cant": "holds for every image content", "anchors": ["lib/disparity_graph.cpp: node_penalty", "lib/disparity_graph.cpp: edge_penalty"]}
{"id": "C13", "title": "Edge penalty does not depend on direction", "statement": "In exact arithmetic the penalty of an edge equals the penalty of the reversed edge, for any reparametrization.", "quantifier": "all graphs, reparametrizations and neighboring nodes", "why_tests_cant": "quantifies over all reparametrization vectors", "anchors": ["lib/disparity_graph.cpp: edge_penalty"]}
{"id": "C14", "title": "Reparametrization preserves the energy of every labeling", "statement": "In exact arithmetic the total penalty (all nodes plus all right and bottom edges) of any labeling is the same for any reparametrization whose entries towards non-existing neighbors are zero.", "quantifier": "all graphs, all reparametrizations, all labelings", "why_tests_cant": "sums over arbitrary grids for arbitrary real vectors", "anchors": ["lib/disparity_graph.cpp: node_penalty", "lib/disparity_graph.cpp: edge_penalty", "include/disparity_graph.hpp: problem statement"]}
{"id": "C15", "title": "Sum of lowest penalties bounds every labeling's energy from below", "statement": "In exact arithmetic, the sum of lowest pixel penalties and lowest right/bottom neighborhood penalties stored by the lowest-penalties table is at most the total penalty of any labeling made of existing nodes and edges.", "quantifier": "all graphs, all reparametrizations, all labelings", "why_tests_cant": "quantifies over all labelings of all graphs", "anchors": ["lib/lowest_penalties.cpp: LowestPenalties::LowestPenalties", "include/disparity_graph.hpp: dual problem"]}
{"id": "C16", "title": "Lowest pixel penalty is the true minimum", "statement": "The stored lowest penalty of a pixel is attained by one of its existing nodes and no existing node of the pixel has a lower penalty.", "quantifier": "all graphs, reparametrizations, pixels", "why_tests_cant": "minimum over any number of disparities near the right border", "anchors": ["lib/lowest_penalties.cpp: calculate_lowest_pixel_penalty", "lib/lowest_penalties.cpp: lowest_pixel_penalty"]}
{"id": "C17", "title": "Lowest neighborhood penalty is the true minimum", "statement": "The stored lowest penalty of two neighboring pixels is attained by an existing edge between them and no existing edge between them has a lower penalty, for all four directions.", "quantifier": "all graphs, reparametrizations, neighborhoods", "why_tests_cant": "the set of existing edges depends on direction and border; the tests cover the right direction only", "anchors": ["lib/lowest_penalties.cpp: calculate_lowest_neighborhood_penalty_fast", "lib/lowest_penalties.cpp: lowest_neighborhood_penalty"]}
{"id": "C18", "title": "The constraint graph starts with exactly the nodes within the threshold", "statement": "After construction a node is available if and only if it exists and its penalty exceeds the lowest penalty of its pixel by at most the threshold.", "quantifier": "all graphs, reparametrizations, thresholds and nodes", "why_tests_cant": "every slot, including slots of nodes that do not exist", "anchors": ["lib/constraint_graph.cpp: ConstraintGraph::ConstraintGraph"]}
{"id": "C19", "title": "A larger threshold never removes choices", "statement": "If t1 <= t2 then every node and every edge available at threshold t1 is available at t2, and solving the constraint problem at t2 leaves at least the nodes that solving at t1 leaves; so if the problem is reported solvable at t1 it is reported solvable at t2.", "quantifier": "all graphs and all pairs of thresholds", "why_tests_cant": "monotonicity relates two executions", "anchors": ["lib/constraint_graph.cpp: ConstraintGraph::ConstraintGraph", "lib/constraint_graph.cpp: solve_csp"]}
{"id": "C20", "title": "Non-negative thresholds keep every pixel alive at the start", "statement": "With threshold >= 0 every pixel has at least one available node after construction; with a negative threshold no node is available.", "quantifier": "all graphs and thresholds", "why_tests_cant": "needs the minimum to be attained for every pixel", "anchors": ["lib/constraint_graph.cpp: ConstraintGraph::ConstraintGraph"]}
{"id": "C21", "title": "Marking a node changes that node only", "statement": "make_node_available / make_node_unavailable set the availability of the given node and leave all other nodes as they were; make_all_nodes_unavailable clears all.", "quantifier": "all graphs and pairs of nodes", "why_tests_cant": "frame condition over all other nodes", "anchors": ["lib/constraint_graph.cpp: make_node_available", "lib/constraint_graph.cpp: make_node_unavailable", "lib/constraint_graph.cpp: make_all_nodes_unavailable", "lib/constraint_graph.cpp: is_node_available"]}
{"id": "C22", "title": "Edge availability is exact", "statement": "For an edge between existing neighboring pixels, is_edge_available is true if and only if the edge exists, both its nodes are available and its penalty exceeds the lowest penalty of the neighborhood by at most the threshold.", "quantifier": "all constraint graphs and edges", "why_tests_cant": "every combination of availability and direction", "anchors": ["lib/constraint_graph.cpp: is_edge_available"]}
{"id": "C23", "title": "A node is scheduled for removal exactly when it lost all edges to some neighbor", "statement": "should_remove_node is true if and only if the node is available and there is an existing neighboring pixel to which it has no available edge at all.", "quantifier": "all constraint graphs and existing nodes", "why_tests_cant": "the search skips part of the disparities; no available edge may hide in the skipped part", "anchors": ["lib/constraint_graph.cpp: should_remove_node"]}
{"id": "C24", "title": "Processing a pixel removes exactly its unsupported nodes and reports it", "statement": "csp_process_pixel makes unavailable exactly the available nodes of that pixel which lack an available edge to some existing neighbor, leaves every other pixel alone, and returns true if and only if it removed something; doing it twice in a row removes nothing more.", "quantifier": "all constraint graphs and pixels", "why_tests_cant": "frame condition and exactness over all availability states", "anchors": ["lib/constraint_graph.cpp: csp_process_pixel"]}
{"id": "C25", "title": "An iteration of the solver reports whether it changed something", "statement": "csp_solution_iteration returns true if and only if it made some available node unavailable.", "quantifier": "all constraint graphs, job counts and job numbers", "why_tests_cant": "needs a comparison of states before and after for all states", "anchors": ["lib/constraint_graph.cpp: csp_solution_iteration"]}
{"id": "C26", "title": "Solving the constraint problem always terminates", "statement": "solve_csp returns after finitely many iterations (at most two) for every constraint graph.", "quantifier": "all constraint graphs", "why_tests_cant": "termination for every input", "anchors": ["lib/constraint_graph.cpp: solve_csp"]}
{"id": "C27", "title": "Solving never removes a node that belongs to a solution", "statement": "Every node that belongs to some consistent labeling (one available node per pixel, all neighboring nodes connected by edges within the threshold) is still available after solve_csp, with any number of jobs.", "quantifier": "all constraint graphs, all labelings, any number of jobs", "why_tests_cant": "quantifies over all labelings of all graphs", "anchors": ["lib/constraint_graph.cpp: solve_csp", "lib/constraint_graph.cpp: csp_solution_iteration"]}
{"id": "C28", "title": "'Unsolvable' is never reported wrongly", "statement": "If solve_csp returns false then no consistent labeling exists, and no node is left available.", "quantifier": "all constraint graphs", "why_tests_cant": "non-existence over exponentially many labelings", "anchors": ["lib/constraint_graph.cpp: solve_csp"]}
{"id": "C29", "title": "'Solvable' means a labeling exists", "statement": "If solve_csp returns true then every pixel has an available node and a consistent labeling exists.", "quantifier": "all constraint graphs of fresh disparity graphs", "why_tests_cant": "existence over exponentially many labelings", "anchors": ["lib/constraint_graph.cpp: solve_csp", "include/constraint_graph.hpp: csp-solution"]}
{"id": "C30", "title": "Solving removes every node that belongs to no solution", "statement": "After solve_csp every node left available has, towards each existing neighbor, at least one available edge (arc consistency), as documented.", "quantifier": "all constraint graphs", "why_tests_cant": "fixed point over all states; small tests happen to converge in one sweep", "anchors": ["lib/constraint_graph.cpp: solve_csp", "lib/constraint_graph.cpp: csp_solution_iteration", "include/constraint_graph.hpp: csp-solution"]}
{"id": "C31", "title": "The fixed point of node removal does not depend on processing order", "statement": "Processing pixels in any order until no pixel changes always ends in the same set of available nodes: the largest subset of the start set in which every node has an available edge to each existing neighbor; and this end is always reached.", "quantifier": "all constraint graphs, all infinite or finite processing orders", "why_tests_cant": "quantifies over all schedules", "anchors": ["lib/constraint_graph.cpp: csp_process_pixel", "lib/solve_csp.cl: csp_solution_iteration_gpu"]}
{"id": "C32", "title": "Arc consistency decides solvability", "statement": "For a fresh disparity graph, if at the fixed point of node removal every pixel still has an available node, then taking the lowest available disparity in each pixel gives a consistent labeling.", "quantifier": "all fresh disparity graphs, thresholds, availability states", "why_tests_cant": "holds by a lattice argument on all graphs", "anchors": ["include/constraint_graph.hpp: csp-solution", "lib/constraint_graph.cpp: csp_process_pixel", "lib/constraint_graph.cpp: is_edge_available"]}
{"id": "C33", "title": "Parallel workers do not lose solutions", "statement": "When several workers run csp_solution_iteration at the same time, with any interleaving of their reads and writes of availability flags, every node of every consistent labeling stays available.", "quantifier": "all numbers of workers, all interleavings, all graphs", "why_tests_cant": "interleavings cannot be enumerated by tests", "anchors": ["lib/constraint_graph.cpp: solve_csp", "lib/constraint_graph.cpp: csp_solution_iteration"]}
{"id": "C34", "title": "Pixel thresholds are complete, sorted and distinct", "statement": "fetch_pixel_available_penalties returns, in strictly ascending order, exactly the differences between penalties of existing nodes of the pixel and the given minimum.", "quantifier": "all graphs, pixels, minima", "why_tests_cant": "set equality for any number of disparities near the border", "anchors": ["lib/labeling_finder.cpp: fetch_pixel_available_penalties"]}
{"id": "C35", "title": "Edge thresholds are complete, sorted and distinct", "statement": "fetch_edge_available_penalties returns, in strictly ascending order, exactly the differences between penalties of existing edges of the neighborhood and the given minimum.", "quantifier": "all graphs, neighborhoods, minima", "why_tests_cant": "set equality over all disparity pairs", "anchors": ["lib/labeling_finder.cpp: fetch_edge_available_penalties"]}
{"id": "C36", "title": "All thresholds are complete, sorted and distinct", "statement": "fetch_available_penalties returns, in strictly ascending order, exactly the union of thresholds of all pixels and of all existing neighborhoods; the list is not empty.", "quantifier": "all graphs", "why_tests_cant": "set equality over the whole grid", "anchors": ["lib/labeling_finder.cpp: fetch_available_penalties"]}
{"id": "C37", "title": "Threshold search returns the least threshold reported solvable", "statement": "For a strictly ascending non-empty candidate list whose last element is reported solvable by solve_csp, calculate_minimal_consistent_threshold returns a candidate for which solve_csp succeeds, and solve_csp fails for all smaller candidates; it calls solve_csp at most ceil(log2 n) times for n candidates.", "quantifier": "all graphs and candidate lists", "why_tests_cant": "correctness of bisection for every length and every position of the boundary", "anchors": ["lib/labeling_finder.cpp: calculate_minimal_consistent_threshold"]}
{"id": "C38", "title": "The program never reports 'Cannot solve CSP problem'", "statement": "For every accepted disparity graph, the constraint graph built with the threshold found from the fetched candidates is reported solvable by solve_csp.", "quantifier": "all accepted graphs", "why_tests_cant": "the error message says it should never happen; needs all inputs", "anchors": ["lib/main.cpp: main", "lib/labeling_finder.cpp: calculate_minimal_consistent_threshold", "lib/labeling_finder.cpp: fetch_available_penalties"]}
{"id": "C39", "title": "The found threshold is the smallest consistent one", "statement": "The threshold returned by the pipeline is the least candidate for which a consistent labeling exists.", "quantifier": "all accepted graphs", "why_tests_cant": "optimality over all labelings", "anchors": ["lib/labeling_finder.cpp: calculate_minimal_consistent_threshold", "include/labeling_finder.hpp: calculate_minimal_consistent_threshold"]}
{"id": "C40", "title": "Choosing the best node keeps exactly the best one", "statement": "choose_best_node leaves in the pixel exactly one of the nodes that were available, one with the lowest penalty among them (the lowest disparity among equals), touches no other pixel, and reports failure if and only if no node was available.", "quantifier": "all constraint graphs and pixels", "why_tests_cant": "every pattern of penalties, including ties and negative values", "anchors": ["lib/labeling_finder.cpp: choose_best_node"]}
{"id": "C41", "title": "A returned labeling is a consistent labeling", "statement": "If find_labeling returns a graph then every pixel has exactly one available node, that node was available before, and every two neighboring pixels are connected by an available edge.", "quantifier": "all constraint graphs", "why_tests_cant": "consistency over the whole grid for every input", "anchors": ["lib/labeling_finder.cpp: find_labeling"]}
{"id": "C42", "title": "A labeling is found whenever one exists", "statement": "For every accepted disparity graph the program's labeling step succeeds ('Cannot find labeling' never happens).", "quantifier": "all accepted graphs", "why_tests_cant": "the error message says it should never happen; needs all inputs", "anchors": ["lib/labeling_finder.cpp: find_labeling", "lib/main.cpp: main"]}
{"id": "C43", "title": "The disparity map shows the available disparity of each pixel", "statement": "build_disparity_map returns an image of the size of the inputs with maximal value equal to the number of levels, whose value in each pixel is the lowest available disparity; it throws std::logic_error if and only if some pixel has no available node; the result is a valid image.", "quantifier": "all constraint graphs", "why_tests_cant": "every pixel and availability state", "anchors": ["lib/labeling_finder.cpp: build_disparity_map"]}
{"id": "C44", "title": "An ambiguous graph is rejected when building the map", "statement": "build_disparity_map throws std::logic_error when some pixel has two or more available nodes.", "quantifier": "all constraint graphs", "why_tests_cant": "needs every availability state", "anchors": ["lib/labeling_finder.cpp: build_disparity_map"]}
{"id": "C45", "title": "End-to-end: the program's disparity map is consistent", "statement": "Whenever the program writes a disparity map, every value is below the number of levels and points inside the left image, in each row matched left columns never go backwards, node and edge penalties differ from the lowest ones by at most the found threshold.", "quantifier": "all pairs of input images and options", "why_tests_cant": "whole-program property", "anchors": ["lib/main.cpp: main", "lib/labeling_finder.cpp", "lib/constraint_graph.cpp"]}
{"id": "C46", "title": "Written images read back unchanged", "statement": "Writing a valid image with maximal value at most 65536 and reading the text back yields the same image and a stream without failbit.", "quantifier": "all valid images", "why_tests_cant": "round trip for all sizes, including row wrapping after 11 numbers", "anchors": ["lib/pgm_io.cpp: operator<<", "lib/pgm_io.cpp: operator>>"]}
{"id": "C47", "title": "Written lines fit the plain PGM limit", "statement": "Every line of a written image with maximal value at most 65536 has at most 70 characters.", "quantifier": "all valid images", "why_tests_cant": "all sizes and values", "anchors": ["lib/pgm_io.cpp: operator<<", "include/pgm_io.hpp: MAX_NUMBERS_PER_ROW"]}
{"id": "C48", "title": "Nothing is written for an absent or invalid image", "statement": "Writing without an image or with an invalid one outputs nothing.", "quantifier": "all images", "why_tests_cant": "all invalid images", "anchors": ["lib/pgm_io.cpp: operator<<"]}
{"id": "C49", "title": "Reading does not depend on layout or comments", "statement": "For any sequence of tokens separated by arbitrary non-empty mixes of whitespace and comment lines, the result of reading is the same as for the tokens separated by single spaces.", "quantifier": "all token sequences and all separators", "why_tests_cant": "unboundedly many layouts", "anchors": ["lib/pgm_io.cpp: read_pgm_instruction", "lib/pgm_io.cpp: operator>>"]}
{"id": "C50", "title": "A failed read leaves the previous image in place", "statement": "If reading fails (failbit) the image held by the reader is the one it held before.", "quantifier": "all input texts", "why_tests_cant": "all malformed inputs", "anchors": ["lib/pgm_io.cpp: operator>>"]}
{"id": "C51", "title": "Malformed headers and missing values are refused", "statement": "Reading fails with failbit if the magic is not P2, a header field or an intensity is missing or does not start like a number, or the maximal value exceeds 65536.", "quantifier": "all input texts", "why_tests_cant": "all malformed inputs", "anchors": ["lib/pgm_io.cpp: operator>>"]}
{"id": "C52", "title": "Trailing content is refused exactly when it is not whitespace or comments", "statement": "After the last intensity, the stream ends without failbit if and only if the rest of the text consists of whitespace and comments.", "quantifier": "all rests of input", "why_tests_cant": "all texts", "anchors": ["lib/pgm_io.cpp: check_file_end"]}
{"id": "C53", "title": "Reading any file is memory safe", "statement": "Reading never writes outside the image data, whatever the text.", "quantifier": "all input texts", "why_tests_cant": "adversarial header values; silent memory corruption", "anchors": ["lib/pgm_io.cpp: operator>>"]}
{"id": "C54", "title": "Launching without parameters shows the help", "statement": "If the program is launched without parameters or with --help, it prints the list of options.", "quantifier": "all command lines", "why_tests_cant": "decision table over all option combinations", "anchors": ["lib/main.cpp: main", "README.rst: Using the application"]}
{"id": "C55", "title": "Exit status tells success from failure", "statement": "The program returns 0 only if it wrote a disparity map.", "quantifier": "all command lines and inputs", "why_tests_cant": "all error paths", "anchors": ["lib/main.cpp: main"]}
{"id": "C56", "title": "Each GPU work item processes its own pixel and all pixels are covered", "statement": "The mapping from work item numbers to pixels used by the OpenCL kernel (and block/thread numbers of the CUDA kernel) is a bijection onto the pixels of the image.", "quantifier": "all image sizes", "why_tests_cant": "all sizes", "anchors": ["lib/solve_csp.cl: csp_iteration", "lib/solve_csp.cu: csp_iteration_cuda", "lib/gpu_csp.cpp: csp_solution_cl"]}
{"id": "C57", "title": "The GPU solver reaches the unique fixed point under every schedule", "statement": "Whatever the order in which work items process their pixels inside each round, once a round changes nothing the availability is the largest arc-consistent subset of the initial one.", "quantifier": "all schedules of work items, all graphs", "why_tests_cant": "schedules cannot be enumerated", "anchors": ["lib/solve_csp.cl: csp_solution_iteration_gpu", "lib/solve_csp.cu: csp_solution_iteration_gpu"]}
{"id": "C58", "title": "All GPU work items leave the round loop together", "statement": "All work items of the kernel agree on how many rounds they execute, so that they meet at every barrier.", "quantifier": "all schedules", "why_tests_cant": "a race on the shared flag between the check and the next reset", "anchors": ["lib/solve_csp.cl: csp_solution_iteration_gpu", "lib/solve_csp.cu: csp_solution_iteration_gpu"]}
{"id": "C59", "title": "A disparity map obtained through the GPU path is consistent", "statement": "If after the GPU labeling the disparity map can be built, then it is a consistent labeling; and every pixel has at most one available node.", "quantifier": "all graphs, all schedules", "why_tests_cant": "all inputs and schedules", "anchors": ["lib/gpu_csp.cpp: csp_solution_cl", "lib/cuda_csp.cu: csp_solution_cuda", "lib/labeling_finder.cpp: find_labeling_cl"]}
{"id": "C60", "title": "A produced disparity map is optimal", "statement": "Whenever a disparity map is produced, it is feasible at some threshold and no labeling at all is feasible at a smaller one, so the map minimizes the largest excess of penalties over the lowest ones.", "quantifier": "all accepted images and parameters", "why_tests_cant": "would need an exact solver and all inputs", "anchors": ["lib/main.cpp: main", "lib/labeling_finder.cpp: calculate_minimal_consistent_threshold", "lib/labeling_finder.cpp: find_labeling"]}
{"id": "C61", "title": "The whole program is safe", "statement": "For every command line and all files within reasonable size limits the program ends with status 0 or 1: no undefined behaviour, no infinite loop, no exception that is not caught.", "quantifier": "all command lines and file contents", "why_tests_cant": "all inputs", "anchors": ["lib/main.cpp: main"]}
{"id": "C62", "title": "What the program writes", "statement": "Whenever the program writes a file, it is the file given as output, both input files are images acceptable with the given options, and the written text reads back as an optimal consistent disparity map of the same size.", "quantifier": "all command lines and file contents", "why_tests_cant": "all inputs, end to end", "anchors": ["lib/main.cpp: main"]}
{"id": "C63", "title": "The error stream tells success from failure", "statement": "A disparity map is written if and only if nothing is printed to the error stream.", "quantifier": "all command lines and file contents", "why_tests_cant": "all error paths", "anchors": ["lib/main.cpp: main"]}
{"id": "C64", "title": "Numbers in options are used as given", "statement": "Weights and the number of disparity levels given as options are used as given, and anything else than a number is refused.", "quantifier": "all values of options", "why_tests_cant": "all strings", "anchors": ["lib/main.cpp: main"]}
{"id": "C65", "title": "A round without effect means that the work is done", "statement": "If in a round of parallel workers all of them report no change and no flag changes, then either no node is available or each pixel has an available node and each available node has an available edge to each neighbor; each row belongs to exactly one worker.", "quantifier": "all numbers of workers, all schedules, all graphs", "why_tests_cant": "schedules cannot be enumerated", "anchors": ["lib/constraint_graph.cpp: solve_csp", "lib/constraint_graph.cpp: csp_solution_iteration"]}
{"id": "C66", "title": "Parallel solving ends", "statement": "solve_csp compiled with OpenMP returns for each schedule of its threads.", "quantifier": "all numbers of threads, all schedules, all graphs", "why_tests_cant": "needs an unlucky schedule again and again; a test would hang", "anchors": ["lib/constraint_graph.cpp: solve_csp", "lib/constraint_graph.cpp: make_all_nodes_unavailable", "include/types.hpp: BOOL_ARRAY"]}
{"id": "C67", "title": "The result of parallel solving does not depend on the schedule", "statement": "All executions of solve_csp with the same number of threads and the same graph have the same result.", "quantifier": "all pairs of schedules, all graphs", "why_tests_cant": "schedules cannot be enumerated", "anchors": ["lib/constraint_graph.cpp: solve_csp"]}
{"id": "C68", "title": "'Cannot solve CSP problem' never happens with several threads", "statement": "For every accepted disparity graph the constraint graph built for the threshold found by the parallel program is solved by it.", "quantifier": "all accepted graphs, all schedules", "why_tests_cant": "two calls with the same graph have to be scheduled differently", "anchors": ["lib/constraint_graph.cpp: solve_csp", "lib/labeling_finder.cpp: calculate_minimal_consistent_threshold", "lib/main.cpp: main"]}
{"id": "C69", "title": "A map produced by several threads is consistent and optimal", "statement": "Whenever the program compiled with OpenMP produces a disparity map, it is a labeling feasible at the found threshold, and no labeling is feasible at a smaller one, whatever the schedule of the threads in each call of solve_csp.", "quantifier": "all numbers of threads, all schedules, all accepted images", "why_tests_cant": "schedules cannot be enumerated", "anchors": ["lib/constraint_graph.cpp: solve_csp", "lib/labeling_finder.cpp: find_labeling", "lib/main.cpp: main"]}
{"id": "C70", "title": "Several threads stay inside the arrays", "statement": "Whatever the schedule, threads of the program compiled with OpenMP access availability flags only inside their array; the computation gives a map, ends with std::logic_error, or goes on forever.", "quantifier": "all numbers of threads, all schedules, all accepted images", "why_tests_cant": "schedules cannot be enumerated", "anchors": ["lib/constraint_graph.cpp: solve_csp"]}
{"id": "C71", "title": "OpenMP with one thread is the sequential program", "statement": "With one thread solve_csp has exactly one outcome, that of the sequential program; with several threads executing them one after another in any order is one of the possible executions.", "quantifier": "all graphs, all numbers of threads", "why_tests_cant": "all inputs", "anchors": ["lib/constraint_graph.cpp: solve_csp"]}
{"id": "C72", "title": "The chosen technology is used", "statement": "If the program is built with a technology and its name is given in any letter case, exactly this technology is announced and used; without the option the processor is used; any other name ends the program with status 1.", "quantifier": "all values of the option, all builds", "why_tests_cant": "all builds and strings; GPU builds are not tested", "anchors": ["lib/main.cpp: main"]}
{"id": "C73", "title": "Default values of options", "statement": "An option that is not given is the same as the option given with its default value: 1 for weights, the width of the left image for the number of levels.", "quantifier": "all command lines and files", "why_tests_cant": "all command lines", "anchors": ["lib/main.cpp: main", "README.rst: Using the application"]}
{"id": "C74", "title": "GPU kernels are safe and end", "statement": "No work item of the kernels reads or writes outside of the arrays, no execution of a kernel is infinite, and an execution that cannot go on has ended or its items miss each other at a barrier.", "quantifier": "all graphs, all schedules, all divisions into work groups", "why_tests_cant": "schedules cannot be enumerated; needs a device", "anchors": ["lib/solve_csp.cl: csp_iteration", "lib/solve_csp.cu: csp_iteration_cuda"]}
{"id": "C75", "title": "Host loops of the GPU versions end", "statement": "The loop that launches the kernel until nothing changes ends, so finding of a labeling on GPU ends unless work items miss each other at a barrier.", "quantifier": "all graphs, all schedules, all divisions into work groups", "why_tests_cant": "a test cannot show that a loop ends for all schedules", "anchors": ["lib/gpu_csp.cpp: csp_solution_cl", "lib/cuda_csp.cu: csp_solution_cuda"]}
{"id": "C76", "title": "What is found on GPU does not depend on the schedule", "statement": "All executions of the GPU version for the same images end in the same way.", "quantifier": "all pairs of schedules, all accepted images", "why_tests_cant": "schedules cannot be enumerated", "anchors": ["lib/gpu_csp.cpp: csp_solution_cl", "lib/cuda_csp.cu: csp_solution_cuda"]}
{"id": "C77", "title": "The OpenCL host loop stops only when nothing can be removed", "statement": "When changed[1] is zero after a launch, each available node has an available edge to each neighbor.", "quantifier": "all graphs, all schedules, all divisions into work groups", "why_tests_cant": "needs several work groups and an unlucky schedule", "anchors": ["lib/gpu_csp.cpp: csp_solution_cl", "lib/solve_csp.cl: csp_iteration"]}
{"id": "C78", "title": "A map found on GPU satisfies the constraints of the host", "statement": "A map found on GPU is feasible at the threshold found by the host, and no labeling is feasible at a smaller one.", "quantifier": "all accepted images, all schedules", "why_tests_cant": "depends on rounding and schedules", "anchors": ["lib/gpu_csp.cpp: prepare_problem", "include/types.hpp: FLOAT", "lib/main.cpp: main"]}
{"id": "C79", "title": "GPU and CPU give the same result", "statement": "For the same images and options the program ends in the same way with GPU and with CPU.", "quantifier": "all accepted images, all schedules", "why_tests_cant": "needs all images; a difference is rare", "anchors": ["lib/labeling_finder.cpp: find_labeling", "lib/labeling_finder.cpp: find_labeling_cl", "lib/labeling_finder.cpp: find_labeling_cuda"]}
{"id": "C80", "title": "All produced maps are the same: the best labeling", "statement": "Each produced disparity map is the best of all labelings feasible at the least threshold, compared at the first pixel in the order of columns where they differ by the penalty of the node and then by the disparity. So whatever the numbers of threads, their schedules and the technology, two executions that produce a map for the same images produce the same one.", "quantifier": "all accepted images, all pairs of executions", "why_tests_cant": "schedules cannot be enumerated, would need all labelings", "anchors": ["lib/main.cpp: main", "lib/labeling_finder.cpp: find_labeling", "lib/labeling_finder.cpp: choose_best_node", "lib/constraint_graph.cpp: solve_csp"]}
{"id": "C81", "title": "CUDA uses the same data as the processor", "statement": "Although code for CUDA computes with 32-bit integers, for every graph it uses the same elements of arrays, nodes, edges and intensities as the processor does.", "quantifier": "all graphs, nodes, edges and intensities", "why_tests_cant": "overflow happens only for graphs that do not fit in a test; needs a device", "anchors": ["include/types.hpp: ULONG", "lib/indexing.cu", "lib/indexing_checks.cu", "lib/disparity_graph.cpp: TO_FLOAT", "lib/cuda_csp.cu: prepare_problem"]}
{"id": "C82", "title": "Each pair of images gets a map from some technology", "statement": "For all accepted images a disparity map is found by the processor or by a device, with some number of threads, some schedule and some division into work groups.", "quantifier": "all accepted images, all technologies and schedules", "why_tests_cant": "schedules cannot be enumerated; images without a map are rare", "anchors": ["lib/main.cpp: main", "lib/labeling_finder.cpp: find_labeling", "lib/labeling_finder.cpp: choose_best_node", "lib/constraint_graph.cpp: solve_csp", "lib/gpu_csp.cpp: csp_solution_cl", "lib/cuda_csp.cu: csp_solution_cuda"]}
{"id": "C83", "title": "No data races", "statement": "At no moment of an execution of solve_csp by several threads, or of a GPU kernel, do two threads or work items access the same word of memory, at least one of them storing it.", "quantifier": "all graphs, all numbers of threads, all schedules, all divisions into work groups", "why_tests_cant": "a race shows itself rarely or never on a given machine and compiler", "anchors": ["lib/constraint_graph.cpp: solve_csp", "lib/constraint_graph.cpp: csp_solution_iteration", "lib/solve_csp.cl: csp_iteration", "lib/solve_csp.cu: csp_iteration_cuda"]}
{"id": "C84", "title": "Options are understood as they are given", "statement": "Options may be given in any order, by the long name, its beginning or the letter, with the value in the same word or in the next one: the program uses exactly the values given. An option given twice, or a command line that is not one, ends the program with status 1 and a message.", "quantifier": "all command lines", "why_tests_cant": "all lists of words", "anchors": ["lib/main.cpp: main"]}
{"id": "C85", "title": "Arguments without a meaning are refused", "statement": "A word of the command line that is neither an option nor a value of an option ends the program with a message.", "quantifier": "all command lines", "why_tests_cant": "all lists of words", "anchors": ["lib/main.cpp: main"]}
{"id": "C86", "title": "The OpenCL program is built from all its files", "statement": "The source of the OpenCL program consists of the contents of all listed files in the order of the list; whatever function may run when a kernel runs is defined in them exactly once and does not call itself; if a file cannot be opened, the program is not built.", "quantifier": "all lists of files and contents", "why_tests_cant": "needs a device; all contents of files", "anchors": ["lib/compile_cl.cpp: concatenate_files", "lib/compile_cl.cpp: create_program", "include/gpu_csp.hpp: SOURCE_FILES"]}
{"id": "C87", "title": "Images too large for CUDA are reported", "statement": "A block of threads is launched for each column, with a thread for each row. If the device does not allow that many, the program prints a message to the error stream, ends with status 1 and writes nothing; otherwise the limits of the device do not matter.", "quantifier": "all images, options and limits", "why_tests_cant": "needs devices with different limits and images with more than 1024 rows", "anchors": ["lib/cuda_csp.cu: csp_solution_cuda", "lib/cuda_csp.cu: cudaCheckError", "lib/main.cpp: main"]}
{"id": "C88", "title": "Failures of OpenCL are reported", "statement": "If OpenCL is used and fails (no device, sources that cannot be compiled, no memory, a kernel that cannot be launched), the program prints a message to the error stream, ends with status 1 and writes nothing.", "quantifier": "all images, options and failures", "why_tests_cant": "failures cannot be caused in a test", "anchors": ["lib/labeling_finder.cpp: find_labeling_cl", "lib/gpu_csp.cpp: build_csp_program", "lib/gpu_csp.cpp: csp_solution_cl", "lib/main.cpp: main"]}
{"id": "C89", "title": "The whole map is written", "statement": "If the program ends with status 0 and prints nothing to the error stream, then the output file contains the whole disparity map.", "quantifier": "all images and options, all file systems", "why_tests_cant": "a full device is not a part of a test", "anchors": ["lib/main.cpp: main", "lib/pgm_io.cpp: operator<<"]}
{"id": "C90", "title": "Penalties with double are finite", "statement": "Whatever the images and the weights, no computation of a penalty overflows: every penalty of a node or an edge and every lowest penalty is a nonnegative integer not greater than 2^192 (neither infinity, nor NaN, nor negative zero), and every threshold to be tried is finite.", "quantifier": "all images, numbers of levels and weights of 64 bits", "why_tests_cant": "2^64 values of each number", "anchors": ["include/types.hpp: FLOAT", "lib/disparity_graph.cpp: node_penalty", "lib/disparity_graph.cpp: edge_penalty", "lib/lowest_penalties.cpp", "lib/labeling_finder.cpp: fetch_available_penalties"]}
{"id": "C91", "title": "The program with double", "statement": "With numbers of IEEE 754 (rounding, signed zeros, infinities, NaN) the program does what it does with numbers that have the laws of order: it ends with an exit status, a written file is the best map for the penalties computed with double, and it does not depend on threads and schedules.", "quantifier": "all command lines, files, numbers of threads and schedules", "why_tests_cant": "all inputs and schedules", "anchors": ["include/types.hpp: FLOAT", "lib/main.cpp: main", "lib/constraint_graph.cpp: solve_csp", "lib/labeling_finder.cpp: find_labeling"]}
{"id": "C92", "title": "Rounding does not change the map", "statement": "If weights multiplied by squares of differences of intensities and of levels are at most 2^53, then the map found by the processor is the best one in exact arithmetic.", "quantifier": "all images and weights in the range, all numbers of threads and schedules", "why_tests_cant": "all inputs", "anchors": ["include/types.hpp: FLOAT", "lib/main.cpp: main", "lib/disparity_graph.cpp: node_penalty", "lib/disparity_graph.cpp: edge_penalty"]}
{"id": "C93", "title": "float on devices does not change the map", "statement": "Although devices compute with float, the map found by OpenCL or CUDA is the best one in exact arithmetic.", "quantifier": "all images and weights, all schedules", "why_tests_cant": "needs a device; a difference is rare", "anchors": ["include/types.hpp: FLOAT", "lib/gpu_csp.cpp: prepare_problem", "lib/cuda_csp.cu: prepare_problem", "lib/main.cpp: main"]}
{"id": "C94", "title": "Kernels of CUDA with 32 bits", "statement": "ULONG is unsigned in the code compiled for CUDA, and intensities are converted as signed numbers. If 4 * width * height * levels is at most 2^32, then nothing depends on that: the program does the same as with 64-bit kernels, and the file written is the best map.", "quantifier": "all images and options in the range, all schedules, divisions into blocks and limits of devices", "why_tests_cant": "needs a device; all inputs and schedules", "anchors": ["include/types.hpp: ULONG", "lib/cuda_csp.cu: csp_solution_cuda", "lib/solve_csp.cu: csp_iteration_cuda", "lib/solve_csp.cu: choose_best_node_gpu", "lib/disparity_graph.cpp: TO_FLOAT", "lib/indexing.cpp", "lib/main.cpp: main"]}
{"id": "C95", "title": "Images of one row", "statement": "For images of one row neither the number of threads nor their speed matters and there are no data races; solve_csp returns true if and only if there is a labeling; the found threshold is the least one at which there is a labeling.", "quantifier": "all images of one row, all numbers of threads and schedules", "why_tests_cant": "all inputs and schedules", "anchors": ["lib/constraint_graph.cpp: solve_csp", "lib/constraint_graph.cpp: csp_solution_iteration", "lib/labeling_finder.cpp: calculate_minimal_consistent_threshold", "lib/labeling_finder.cpp: find_labeling", "lib/main.cpp: main"]}
{"id": "C96", "title": "Which images of one row get a map", "statement": "For images of one row a map is written if and only if it is the map of the best candidates (in column x those compatible with the choice in the previous column that can be continued x + 1 columns to the right), and it is then the best map; otherwise the program says that it cannot find a labeling. What the processor finds is also found by a device with a single work group, unless its work items miss each other at a barrier.", "quantifier": "all images of one row, all numbers of threads and schedules", "why_tests_cant": "all inputs and schedules", "anchors": ["lib/labeling_finder.cpp: find_labeling", "lib/labeling_finder.cpp: choose_best_node", "lib/constraint_graph.cpp: solve_csp", "lib/gpu_csp.cpp: csp_solution_cl", "lib/cuda_csp.cu: csp_solution_cuda", "lib/main.cpp: main"]}
{"id": "C97", "title": "Contraction of a * b + c", "statement": "Compilers of C++ and CUDA may compute a * b + c as one operation with a single rounding. Nothing depends on that: whichever operations are contracted on the processor and on devices, the program does what it does without contraction, whatever the weights.", "quantifier": "all command lines, files, weights and schedules, all choices of operations to be contracted", "why_tests_cant": "one compiler makes one choice", "anchors": ["include/types.hpp: FLOAT", "lib/disparity_graph.cpp: node_penalty", "lib/disparity_graph.cpp: edge_penalty", "lib/main.cpp: main", "lib/solve_csp.cu: csp_iteration_cuda", "lib/solve_csp.cl: csp_iteration"]}
{"id": "C98", "title": "Rounding makes the map almost optimal", "statement": "Whatever the images and the weights, the map found by the processor with double is almost the best in exact arithmetic: if another labeling is feasible at a threshold, then the map is feasible at this threshold increased by 2^-47 of the largest possible penalty (the larger of cleanness * maxval^2 and smoothness * levels^2).", "quantifier": "all images, numbers of levels and weights of 64 bits, all numbers of threads and schedules", "why_tests_cant": "all inputs; exact arithmetic is not available in tests", "anchors": ["include/types.hpp: FLOAT", "lib/disparity_graph.cpp: node_penalty", "lib/disparity_graph.cpp: edge_penalty", "lib/labeling_finder.cpp: calculate_minimal_consistent_threshold", "lib/main.cpp: main"]}
{"id": "C99", "title": "float on devices makes the map almost optimal", "statement": "Whatever the images and the weights, a map found by OpenCL or CUDA with float is almost the best in exact arithmetic: if another labeling is feasible at a threshold, then the map is feasible at this threshold increased by 2^-19 of the largest possible penalty (the larger of cleanness * maxval^2 and smoothness * levels^2).", "quantifier": "all images, numbers of levels and weights of 64 bits, all schedules and divisions into work groups", "why_tests_cant": "needs a device; all inputs and schedules; exact arithmetic is not available in tests", "anchors": ["include/types.hpp: FLOAT", "lib/disparity_graph.cpp: edge_penalty", "lib/gpu_csp.cpp: csp_solution_cl", "lib/cuda_csp.cu: csp_solution_cuda", "lib/labeling_finder.cpp: find_labeling_cl", "lib/main.cpp: main"]}
{"id": "C100", "title": "Devices with float find what the processor finds", "statement": "If the program writes a map for images of one row without devices, then it writes the same map with a device that computes with float in a single work group, unless work items miss each other at a barrier or the device fails.", "quantifier": "all images of one row, all weights, all schedules", "why_tests_cant": "needs a device; a difference is rare", "anchors": ["include/types.hpp: FLOAT", "lib/gpu_csp.cpp: csp_solution_cl", "lib/cuda_csp.cu: csp_solution_cuda", "lib/labeling_finder.cpp: find_labeling_cl", "lib/labeling_finder.cpp: choose_best_node", "lib/main.cpp: main"]}
{"id": "C101", "title": "Ideal labelings are found", "statement": "If the first of the best matches of each pixel satisfy the constraint on neighbors and are all equal (or smoothness is zero), then the program writes exactly them, whatever the weights, threads, technology and schedules, unless threads go on forever, work items of a device miss each other at a barrier or the device fails. In particular, the map for equal images consists of zeros.", "quantifier": "all images with such a labeling, all weights of 64 bits, all numbers of threads, technologies and schedules", "why_tests_cant": "all inputs and schedules; needs a device", "anchors": ["lib/labeling_finder.cpp: find_labeling", "lib/labeling_finder.cpp: find_labeling_cl", "lib/labeling_finder.cpp: find_labeling_cuda", "lib/labeling_finder.cpp: choose_best_node", "lib/labeling_finder.cpp: calculate_minimal_consistent_threshold", "lib/constraint_graph.cpp: solve_csp", "include/types.hpp: FLOAT", "lib/main.cpp: main"]}
{"id": "C102", "title": "Failures of CUDA", "statement": "Whatever calls of CUDA fail (allocation, copying, launches, synchronization, a lost device), the program compiled without assert does what it does if nothing fails, or prints the message about CUDA, or says that there is no label for a pixel, or a kernel has work items that miss each other at a barrier; in the latter cases nothing is written. With assert the process may also be ended by it, only after a failure. If the device cannot be prepared, then the failure is always noticed.", "quantifier": "all failures of calls in any order, all inputs and schedules", "why_tests_cant": "needs a device that fails", "anchors": ["lib/cuda_csp.cu: cdpAssert", "lib/cuda_csp.cu: cudaCheckError", "lib/cuda_csp.cu: prepare_problem", "lib/cuda_csp.cu: free_problem", "lib/cuda_csp.cu: csp_solution_cuda", "lib/labeling_finder.cpp: find_labeling_cuda", "lib/main.cpp: main"]}
{"id": "C103", "title": "How many times solve_csp is called", "statement": "The threshold takes at most the binary logarithm of the number of candidates (rounded up) calls of solve_csp, one call follows, and find_labeling makes at most one call for each pixel, exactly one if a labeling is found: at most c + 1 + width * height calls, where width * height * (levels + 4 * levels^2) <= 2^c. Each of them makes at most two rounds if there is one thread or flags do not share words.", "quantifier": "all inputs, all arithmetics of FLOAT, all results of solve_csp, all technologies", "why_tests_cant": "all inputs and schedules", "anchors": ["lib/labeling_finder.cpp: fetch_available_penalties", "lib/labeling_finder.cpp: calculate_minimal_consistent_threshold", "lib/labeling_finder.cpp: find_labeling", "lib/constraint_graph.cpp: solve_csp", "lib/main.cpp: main"]}
{"id": "C104", "title": "Only differences of intensities matter", "statement": "If both images are replaced by others of the same size such that the absolute value of the difference between each pixel of the right image and each pixel of the left one stays the same (both are made lighter, or both are replaced by negatives), then the program may do with the new images exactly what it does with the old ones, whatever the weights, levels, threads, technology and schedules; without devices the written text is the same in all executions that write.", "quantifier": "all images, weights, levels, numbers of threads, technologies and schedules", "why_tests_cant": "all pairs of images and schedules; needs a device", "anchors": ["lib/disparity_graph.cpp: node_penalty", "lib/lowest_penalties.cpp: calculate_lowest_pixel_penalty", "lib/labeling_finder.cpp: choose_best_node", "lib/gpu_csp.cpp: csp_solution_cl", "include/types.hpp: FLOAT", "lib/main.cpp: main"]}
{"id": "C105", "title": "Only the ratio of weights matters", "statement": "Two executions with the same images and levels and with weights in the same ratio write the same map; the same map is written if intensities of both images are a times greater and the ratio of cleanness to smoothness is a^2 times smaller.", "quantifier": "all images, levels, threads and schedules, all weights in the same ratio", "why_tests_cant": "all weights; large weights are rounded", "anchors": ["lib/disparity_graph.cpp: node_penalty", "lib/disparity_graph.cpp: edge_penalty", "lib/labeling_finder.cpp: fetch_available_penalties", "lib/labeling_finder.cpp: calculate_minimal_consistent_threshold", "lib/labeling_finder.cpp: choose_best_node", "include/types.hpp: FLOAT", "lib/main.cpp: main"]}
{"id": "C106", "title": "Not enough memory", "statement": "Whatever allocations fail, the program does exactly what it does with enough memory, or it writes nothing, prints the message about std::bad_alloc and ends with status 1. The only exception: if width * height * 4 * levels is greater than a vector may be long (2^60 - 1), then it prints a message about a logic error and ends with status 0.", "quantifier": "all inputs, all failures of allocations in any order, all technologies and results of solve_csp", "why_tests_cant": "allocations do not fail in tests; arrays of 2^60 elements are impossible", "anchors": ["lib/disparity_graph.cpp: DisparityGraph", "lib/lowest_penalties.cpp: LowestPenalties", "lib/labeling_finder.cpp: fetch_available_penalties", "lib/constraint_graph.cpp: ConstraintGraph", "lib/labeling_finder.cpp: build_disparity_map", "lib/main.cpp: main"]}
{"id": "C107", "title": "Read errors", "statement": "If reading of one of the files fails at any place (also for a directory given instead of a file, or if there is no memory for a word), then the program prints a message and writes nothing, whatever part of a word is left by the failure. The failure of a stream is never taken for its end. Files are without undefined behaviour as in C53.", "quantifier": "all files, all places of errors, all remainders of words", "why_tests_cant": "devices do not fail in tests", "anchors": ["lib/pgm_io.cpp: read_pgm_instruction", "lib/pgm_io.cpp: check_file_end", "lib/pgm_io.cpp: operator>>", "lib/main.cpp: read_image", "lib/main.cpp: main"]}
{"id": "C108", "title": "Weights multiplied by powers of two", "statement": "If weights are multiplied by the same power of two, positive or negative, then the same map is written, even if weights or penalties are rounded. The same if intensities are multiplied by a power of two and weights are such that all penalties are multiplied by the same power.", "quantifier": "all images, all weights, all threads and schedules, all ways of contraction of expressions", "why_tests_cant": "weights may be any numbers of 64 bits", "anchors": ["lib/main.cpp: main", "lib/disparity_graph.cpp: node_penalty", "lib/disparity_graph.cpp: edge_penalty", "lib/labeling_finder.cpp: choose_best_node"]}
{"id": "C109", "title": "Devices that are exact for integers", "statement": "If operations of a device on integers up to 2^k are exact as long as results are such integers, whatever the device does with other numbers (subnormal numbers replaced by zeros, another direction of rounding, integers instead of float), and weights multiplied by squares of differences of intensities or levels are at most 2^k, k <= 53, then the file written by the program is the best map in exact arithmetic.", "quantifier": "all arithmetics of devices that are exact for integers, all inputs in the range, all schedules", "why_tests_cant": "needs devices of all kinds; the default device of OpenCL is taken, whatever it is", "anchors": ["lib/gpu_csp.cpp: csp_solution_cl", "lib/gpu_csp.cpp: prepare_problem", "lib/compile_cl.cpp: create_program", "include/types.hpp: FLOAT", "lib/labeling_finder.cpp: find_labeling_cl", "lib/main.cpp: main"]}
{"id": "C110", "title": "Devices without subnormal numbers", "statement": "If a device may replace subnormal operands and results by zeros, whichever and of whatever sign, then the map it finds is worse than any other labeling at most by 2^-19 of the largest penalty, as with float of IEEE 754, whatever the images and weights.", "quantifier": "all choices of numbers replaced by zeros, all inputs and schedules", "why_tests_cant": "depends on the device and its compiler", "anchors": ["lib/gpu_csp.cpp: csp_solution_cl", "lib/compile_cl.cpp: create_program", "include/types.hpp: FLOAT", "lib/labeling_finder.cpp: find_labeling_cl", "lib/main.cpp: main"]}
{"id": "C111", "title": "Whatever fails, no wrong map is written", "statement": "Let the processor compute with double and devices with float. Whatever combination of failures happens in one execution - reading fails at any places, any allocations fail, OpenCL fails, calls of CUDA fail or the device has limits, there is no room for the output - and whatever the order of threads and work items, what is written is the beginning of the text of a map that is worse than any other at most by 2^-19 of the largest penalty (the best map in the range of C93), and it is the whole text if there is room for it. The program ends with status 0 or 1, except for what is known from C91.", "quantifier": "all combinations of failures, all inputs and schedules (reparametrizations of at most 2^32 elements for CUDA)", "why_tests_cant": "combinations of failures are never tested", "anchors": ["lib/pgm_io.cpp: operator>>", "lib/gpu_csp.cpp: csp_solution_cl", "lib/cuda_csp.cu: csp_solution_cuda", "lib/labeling_finder.cpp: find_labeling_cuda", "lib/main.cpp: read_image", "lib/main.cpp: main"]}
{"id": "C112", "title": "Images of equal rows", "statement": "If all rows of the left image are equal, and so are all rows of the right one, then all rows of the written map are equal, and they are equal to the map written for images that consist of one such row, whatever the weights, levels, threads and schedules (with devices: if weights multiplied by squares of differences of intensities or levels are at most 2^24).", "quantifier": "all images of equal rows, all weights, levels, threads and schedules", "why_tests_cant": "all images and schedules", "anchors": ["lib/labeling_finder.cpp: choose_best_node", "lib/labeling_finder.cpp: find_labeling", "lib/labeling_finder.cpp: calculate_minimal_consistent_threshold", "lib/disparity_graph.cpp: edge_penalty", "lib/disparity_graph.cpp: neighborhood_exists", "lib/constraint_graph.cpp: solve_csp", "lib/main.cpp: main"]}
{"id": "C113", "title": "Images turned upside down", "statement": "If both images are turned upside down, then the map is turned upside down.", "quantifier": "all images, weights, levels, threads and schedules", "why_tests_cant": "all images; a difference needs equally good labelings", "anchors": ["lib/labeling_finder.cpp: choose_best_node", "lib/labeling_finder.cpp: find_labeling", "lib/labeling_finder.cpp: calculate_minimal_consistent_threshold", "lib/disparity_graph.cpp: node_penalty", "lib/main.cpp: main"]}
{"id": "C114", "title": "When solve_csp goes on forever", "statement": "The loop of solve_csp may go on forever only if cleared flags are brought back in every round: as soon as one round that reports a change ends the way it could end with each flag in a word of its own (for example since threads did not overlap in it), the next round is the last one. The loop may go on forever iff after some rounds there is a state that a round reporting a change takes to itself. If no call of solve_csp goes on forever, then the program without devices ends with status 0 or 1, whatever the command line, the files (without undefined behaviour as in C53), the threads and schedules.", "quantifier": "all graphs, numbers of threads and schedules, all arithmetics of FLOAT", "why_tests_cant": "needs particular schedules in each of infinitely many rounds", "anchors": ["lib/constraint_graph.cpp: solve_csp", "lib/constraint_graph.cpp: csp_solution_iteration", "lib/constraint_graph.cpp: make_all_nodes_unavailable", "lib/constraint_graph.cpp: make_node_unavailable", "lib/labeling_finder.cpp: find_labeling", "lib/main.cpp: main"]}
{"id": "C115", "title": "What happens to files", "statement": "After an execution all files are as before it, but for the output, and also the output if no map is written. What is written depends only on contents of the two images. If the output is none of the images, then the same command gives the same map again; the output may also be one of the images (the program reads both of them before it is opened), and the map is the same as with any other output. Executions none of which reads or writes what the other one writes may be in any order. A map written by the program, used as both images, is read and gives a map of zeros.", "quantifier": "all files, command lines, sequences of executions; threads and schedules as in C91 for the last statement", "why_tests_cant": "all files and sequences of executions; tests never start the program", "anchors": ["lib/main.cpp: main", "lib/main.cpp: read_image", "lib/pgm_io.cpp: operator<<", "lib/pgm_io.cpp: operator>>"]}
{"id": "C116", "title": "Pixels that cannot have another disparity", "statement": "If each row of the left image has one intensity, then a written map is of zeros, whatever the right image. In each map the value at a pixel is less than the number of columns from the pixel to the end of the row and less than the maximal value, the last column is of zeros, and a value exceeds the next one in its row at most by one. For images of one column no map is written.", "quantifier": "all images, weights, levels, threads and schedules; double on the processor and float on devices", "why_tests_cant": "all images and weights", "anchors": ["lib/disparity_graph.cpp: node_penalty", "lib/disparity_graph.cpp: neighborhood_exists", "lib/labeling_finder.cpp: build_disparity_map", "lib/labeling_finder.cpp: choose_best_node", "lib/disparity_graph.cpp: DisparityGraph", "lib/main.cpp: main"]}
{"id": "C117", "title": "More levels than needed change nothing", "statement": "If the map written with more disparity levels has no disparities for which fewer levels are too few, then the map written with fewer levels has the same disparities.", "quantifier": "all images, weights, levels, threads and schedules", "why_tests_cant": "all images; a difference needs a pixel whose best match is used by neither map", "anchors": ["lib/lowest_penalties.cpp: calculate_lowest_pixel_penalty", "lib/labeling_finder.cpp: calculate_minimal_consistent_threshold", "lib/labeling_finder.cpp: choose_best_node", "lib/constraint_graph.cpp: ConstraintGraph", "lib/main.cpp: main"]}
{"id": "C118", "title": "Without smoothness rows may be rearranged", "statement": "If smoothness is zero and rows of both images are rearranged in the same way (exchanged, repeated), then rows of the written map are rearranged in this way (with devices: if cleanness multiplied by squares of differences of intensities is at most 2^24). Rows influence each other only by the common threshold; it depends on the order of rows whether a map is found.", "quantifier": "all images, rearrangements, numbers of threads and schedules", "why_tests_cant": "all images, rearrangements and schedules", "anchors": ["lib/disparity_graph.cpp: edge_penalty", "lib/labeling_finder.cpp: choose_best_node", "lib/labeling_finder.cpp: calculate_minimal_consistent_threshold", "lib/constraint_graph.cpp: solve_csp", "lib/main.cpp: main"]}
{"id": "C119", "title": "How much neighbors of the map may differ", "statement": "Let m be the largest difference of intensities at the same place of the two images, c cleanness and s smoothness. In each written map values of neighbors differ by such e that s e^2 <= c m^2, and no pixel of the map is worse than with another disparity by more than c m^2; so if s > c m^2, then the map is of zeros. For weights multiplied by squares of differences of intensities or levels up to 2^53 (2^24 with float devices) exactly, in general up to 2^-47 (2^-19) of the largest penalty.", "quantifier": "all images, weights, levels, threads and schedules", "why_tests_cant": "all images and weights", "anchors": ["lib/disparity_graph.cpp: edge_penalty", "lib/disparity_graph.cpp: node_penalty", "lib/labeling_finder.cpp: calculate_minimal_consistent_threshold", "lib/labeling_finder.cpp: find_labeling", "lib/labeling_finder.cpp: build_disparity_map", "lib/main.cpp: main"]}
{"id": "C120", "title": "Two disparity levels", "statement": "If a map with two levels is written, then it is known exactly: if some pixel loses with disparity 0 instead of 1 at least as much as smoothness, then each pixel has the better of its two disparities (0 if they are equal or there is only one), otherwise the map is of zeros. In the first case one thread always finds the map, whatever the images and weights; in the second one the program may end with Cannot find labeling. The same with devices, if they do not fail and weights multiplied by squares of differences of intensities or levels are at most 2^24.", "quantifier": "all images, weights, threads and schedules; one thread for the second statement", "why_tests_cant": "all images and weights", "anchors": ["lib/disparity_graph.cpp: node_penalty", "lib/disparity_graph.cpp: edge_penalty", "lib/labeling_finder.cpp: calculate_minimal_consistent_threshold", "lib/labeling_finder.cpp: find_labeling", "lib/labeling_finder.cpp: choose_best_node", "lib/constraint_graph.cpp: solve_csp", "lib/main.cpp: main"]}
{"id": "C121", "title": "The found threshold and rows", "statement": "If threads work one after another (in particular if there is one thread), then at the threshold found by calculate_minimal_consistent_threshold each row, if there were no others, has a labeling, and at no smaller threshold the whole image has one. So for images of one row the threshold is the least one that has a labeling.", "quantifier": "all images, weights, levels, numbers of threads", "why_tests_cant": "all images; needs all labelings", "anchors": ["lib/labeling_finder.cpp: calculate_minimal_consistent_threshold", "lib/constraint_graph.cpp: solve_csp", "lib/constraint_graph.cpp: csp_solution_iteration", "lib/constraint_graph.cpp: csp_process_pixel"]}
{"id": "C122", "title": "Memory that is not initialised", "statement": "CUDA allocates changed and never initialises it. What is in the cells of changed before a launch does not matter, neither for OpenCL nor for CUDA: possible outcomes of the launch are the same. So each execution of csp_solution_cuda with garbage in changed is also possible with a zero there, and everything proved of CUDA holds. The same with kernels of 32 bits, even if sizes do not fit.", "quantifier": "all graphs, contents of memory, schedules of work items and divisions into groups", "why_tests_cant": "contents of memory that is not initialised cannot be controlled by tests", "anchors": ["lib/cuda_csp.cu: prepare_problem", "lib/cuda_csp.cu: csp_solution_cuda", "lib/solve_csp.cu: csp_solution_iteration_gpu", "lib/solve_csp.cl: csp_iteration", "lib/gpu_csp.cpp: csp_solution_cl"]}
{"id": "C123", "title": "The map and other labelings", "statement": "Let the misfit of a labeling be the most by which in some pixel the square of the difference of intensities exceeds that with another disparity, and its roughness the greatest square of a difference between neighbors. With cleanness c and smoothness s, if a labeling has misfit a and roughness b, then the written map has misfit at most max(c a, s b) / c and roughness at most max(c a, s b) / s; so no labeling is better than the map both in misfit and in roughness. In particular, of two maps written for the same images with any weights neither is better in both respects. Exactly for weights multiplied by squares of differences of intensities or levels up to 2^53 (2^24 with float devices), in general up to 2^-47 (2^-19) of the largest penalty.", "quantifier": "all images, weights, levels, labelings, threads and schedules", "why_tests_cant": "all images, weights and labelings", "anchors": ["lib/disparity_graph.cpp: edge_penalty", "lib/disparity_graph.cpp: node_penalty", "lib/labeling_finder.cpp: calculate_minimal_consistent_threshold", "lib/labeling_finder.cpp: find_labeling", "lib/labeling_finder.cpp: build_disparity_map", "lib/main.cpp: main"]}
{"id": "C124", "title": "Shifted images", "statement": "Let the right image be the left one shifted by k columns (k less than the number of levels), let squares of differences between the last k columns of the right image and the last pixel of the left row be at most a, and let matches with other disparities be bad: cleanness times the square of the difference exceeds both cleanness times a and smoothness. Then the written map is k, except for the last k columns, where it goes down to zero by one. Exactly for weights multiplied by squares of differences of intensities or levels up to 2^53 (2^24 with float devices), in general if the matches are worse by another 2^-47 (2^-19) of the largest penalty. In the exact ranges one thread always finds this map, and so do devices that do not fail.", "quantifier": "all images, shifts, weights, levels, threads and schedules; one thread for the second statement", "why_tests_cant": "all images, shifts and weights", "anchors": ["lib/disparity_graph.cpp: node_penalty", "lib/disparity_graph.cpp: edge_penalty", "lib/disparity_graph.cpp: neighborhood_exists", "lib/labeling_finder.cpp: calculate_minimal_consistent_threshold", "lib/labeling_finder.cpp: find_labeling", "lib/labeling_finder.cpp: build_disparity_map", "lib/constraint_graph.cpp: solve_csp", "lib/main.cpp: main"]}
{"id": "C125", "title": "Clear labelings are found", "statement": "Let b be the greatest square of a difference between neighbors of a labeling. If in each pixel every other disparity is worse than that of the labeling by more than smoothness times b (the penalty being cleanness times the square of the difference of intensities), then the written map is this labeling. Exactly for weights multiplied by squares of differences of intensities or levels up to 2^53 (2^24 with float devices), in general if other disparities are worse by another 2^-47 (2^-19) of the largest penalty. In the exact ranges one thread always finds the labeling, and so do devices that do not fail.", "quantifier": "all images, labelings, weights, levels, threads and schedules; one thread for the second statement", "why_tests_cant": "all images, labelings and weights", "anchors": ["lib/disparity_graph.cpp: node_penalty", "lib/disparity_graph.cpp: edge_penalty", "lib/labeling_finder.cpp: calculate_minimal_consistent_threshold", "lib/labeling_finder.cpp: find_labeling", "lib/labeling_finder.cpp: choose_best_node", "lib/labeling_finder.cpp: build_disparity_map", "lib/constraint_graph.cpp: solve_csp", "lib/main.cpp: main"]}
{"id": "C126", "title": "Noise does not change the map", "statement": "Let there be a scene without noise: a labeling and two images such that corresponding pixels are equal, and pixels connected by other disparities differ by at least D. Let intensities of the images that are read differ from those of the scene by at most n, where 2 n is at most D, and let b be the greatest square of a difference between neighbors of the labeling. If cleanness times D (D - 4 n) exceeds smoothness times b, then the written map is the labeling of the scene. Exactly for weights multiplied by squares of differences of intensities or levels up to 2^53 (2^24 with float devices), in general if it exceeds also another 2^-47 (2^-19) of the largest penalty. In the exact ranges one thread always finds the labeling, and so do devices that do not fail. With noise above a quarter of D the map may be another one.", "quantifier": "all scenes, labelings, noise, weights, levels, threads and schedules; one thread for the second statement", "why_tests_cant": "all scenes, noise and weights", "anchors": ["lib/disparity_graph.cpp: node_penalty", "lib/disparity_graph.cpp: edge_penalty", "lib/labeling_finder.cpp: calculate_minimal_consistent_threshold", "lib/labeling_finder.cpp: find_labeling", "lib/labeling_finder.cpp: build_disparity_map", "lib/constraint_graph.cpp: solve_csp", "lib/main.cpp: main"]}
{"id": "C127", "title": "Reliable pixels", "statement": "Let some labeling have misfit a and roughness b (as in the property of the map and other labelings), and let t be the greater of cleanness times a and smoothness times b. If in a pixel all disparities but one are worse than it by more than t, then the written map has this disparity there, whatever other pixels are. If t is less than smoothness times (k + 1)^2, then any other pixel of the map differs from this disparity at most by k times the number of steps between the pixels. Exactly for weights multiplied by squares of differences of intensities or levels up to 2^53 (2^24 with float devices), in general with t greater by 2^-47 (2^-19) of the largest penalty.", "quantifier": "all images, labelings, pixels, weights, levels, threads and schedules", "why_tests_cant": "all images, labelings and weights", "anchors": ["lib/disparity_graph.cpp: node_penalty", "lib/disparity_graph.cpp: edge_penalty", "lib/labeling_finder.cpp: calculate_minimal_consistent_threshold", "lib/labeling_finder.cpp: find_labeling", "lib/labeling_finder.cpp: build_disparity_map", "lib/main.cpp: main"]}
