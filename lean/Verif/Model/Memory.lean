import Verif.Model.Main
/-!
# Memory of the host that cannot be allocated

The program of `Model/Main.lean` with an allocation in each place where the code allocates memory of a size that depends on the input, and one
for small objects before the computation and one for messages of exceptions. Data of images that are being read have a limit of their own
(`World.memory`). `find_labeling` allocates nothing; failures of functions for devices are exceptions of these functions.
-/
namespace SP
open FloatOps
variable {F : Type} [FloatOps F]

/-- Where memory is allocated. -/
inductive Allocation where
  /-- strings and options, `main.cpp:36-130` -/
  | start
  /-- the image returned by `read_image`, `main.cpp:308`: `0` for the left one, `1` for the right one; copies that are parameters of the
  constructor of `DisparityGraph`, `main.cpp:165-166`: `2` and `3` -/
  | image (number : Nat)
  /-- `disparity_graph.cpp:167-172` -/
  | reparametrization
  /-- `lowest_penalties.cpp:45` -/
  | lowestPixels
  /-- `lowest_penalties.cpp:46-50` -/
  | lowestNeighborhoods
  /-- vectors for a pixel, `labeling_finder.cpp:68-72,164-176` -/
  | pixelPenalties (x y : UInt64)
  /-- vectors for a neighborhood, `labeling_finder.cpp:119,203-218` -/
  | edgePenalties (x y neighbor : UInt64)
  /-- the parameter `available_penalties`, `labeling_finder.cpp:230` -/
  | candidates
  /-- `nodes_availability` of the graph with this number, `constraint_graph.cpp:70-74` -/
  | nodes (number : Nat)
  /-- the disparity map, `labeling_finder.cpp:378-383` -/
  | map
  /-- the text of an exception -/
  | message
  deriving DecidableEq, Repr

/-- Whether there is memory for so many elements. -/
abbrev Memory := Allocation → Nat → Bool

/-- `operator new`. -/
def Memory.new (memory : Memory) (a : Allocation) (n : Nat) : M Unit :=
  if memory a n then .ok () else .error (.exc .badAlloc)

/-- `max_size()` of vectors with elements of 8 bytes. -/
def MAX_SIZE : Nat := 1152921504606846975
/-- `max_size()` of `std::vector<bool>`. -/
def MAX_BITS : Nat := 9223372036854775744

/-- A vector of `n` elements. A copy of a vector is not longer than allowed, so `Memory.new` is enough for it. -/
def Memory.vector (memory : Memory) (a : Allocation) (n : Nat) (max_size : Nat := MAX_SIZE) : M Unit :=
  if max_size < n then .error (.exc .lengthError) else memory.new a n

namespace Limited
variable (memory : Memory)

/-- `DisparityGraph::DisparityGraph` with its parameters. -/
def mkDisparityGraph (left right : Image) (disparity_levels : UInt64) (cleanness smoothness : F) : M (DisparityGraph F) := do
  memory.new (.image 2) left.data.size
  memory.new (.image 3) right.data.size
  let graph ← SP.mkDisparityGraph left right disparity_levels cleanness smoothness
  memory.vector .reparametrization (left.width * left.height * NEIGHBORS_COUNT * disparity_levels).toNat
  return graph

/-- `LowestPenalties::LowestPenalties`. -/
def mkLowestPenalties (graph : DisparityGraph F) : M (LowestPenalties F) := do
  memory.vector .lowestPixels (graph.right.height * graph.right.width).toNat
  memory.vector .lowestNeighborhoods (NEIGHBORS_COUNT * graph.right.height * graph.right.width).toNat
  SP.mkLowestPenalties graph

/-- `fetch_available_penalties`. -/
def fetchAvailablePenalties (lowest_penalties : LowestPenalties F) : M (List F) :=
  let graph := lowest_penalties.graph
  cfor graph.right.width.toNat 0 (fun x => decide (x < graph.right.width)) inc
    (fun x (result : List F) => do
      let result ← cfor graph.right.height.toNat 0 (fun y => decide (y < graph.right.height)) inc
        (fun y (result : List F) => do
          let pixel : Pixel := { x := x, y := y }
          let l ← lowestPixelPenalty lowest_penalties pixel
          let available_penalties ← fetchPixelAvailablePenalties graph pixel l
          memory.new (.pixelPenalties x y) (result.length + available_penalties.length)
          let result := uniqueF (sortF (mergeF result available_penalties))
          let result ← cfor 4 0 (fun n => decide (n < NEIGHBORS_COUNT)) inc
            (fun neighbor_index (result : List F) => do
              if !neighborhoodExistsFast graph pixel neighbor_index then
                return (result, false)
              let edge : Edge :=
                { node := { pixel := pixel, disparity := 0 }
                  neighbor := { pixel := neighborByIndex pixel neighbor_index, disparity := 0 } }
              let l ← lowestNeighborhoodPenalty lowest_penalties edge
              let available_penalties ← fetchEdgeAvailablePenalties graph edge l
              memory.new (.edgePenalties x y neighbor_index) (result.length + available_penalties.length)
              return (uniqueF (sortF (mergeF result available_penalties)), false))
            result
          return (result, false))
        result
      return (result, false))
    []

/-- `ConstraintGraph::ConstraintGraph`; the first argument is the number of graphs constructed before. -/
def mkConstraintGraph (number : Nat) (disparity_graph : DisparityGraph F) (lowest_penalties : LowestPenalties F) (threshold : F) :
    M (ConstraintGraph F) := do
  memory.vector (.nodes number)
    (disparity_graph.right.width * disparity_graph.right.height * disparity_graph.disparityLevels).toNat MAX_BITS
  SP.mkConstraintGraph disparity_graph lowest_penalties threshold

variable (solve : Solver F)

/-- The loop of `calculate_minimal_consistent_threshold`: a graph is constructed for each call of `solve_csp`. -/
def thresholdSearch (lowest_penalties : LowestPenalties F) (disparity_graph : DisparityGraph F)
    (available_penalties : Array F) : Nat → UInt64 → UInt64 → Nat → M (UInt64 × Nat)
  | 0, start, end_, calls =>
    if start < end_ then .error .nonterm else .ok ((start + end_) / 2, calls)
  | fuel + 1, start, end_, calls => do
    let current_index := (start + end_) / 2
    if start < end_ then
      let t ← rd available_penalties current_index
      let constraint_graph ← mkConstraintGraph memory calls disparity_graph lowest_penalties t
      let (_, solved) ← solve calls constraint_graph
      if solved then
        thresholdSearch lowest_penalties disparity_graph available_penalties fuel
          start current_index (calls + 1)
      else
        thresholdSearch lowest_penalties disparity_graph available_penalties fuel
          (current_index + 1) end_ (calls + 1)
    else return (current_index, calls)

/-- `calculate_minimal_consistent_threshold`; the vector is passed by value. -/
def calculateMinimalConsistentThreshold (lowest_penalties : LowestPenalties F)
    (disparity_graph : DisparityGraph F) (available_penalties : Array F) : M (F × Nat) := do
  memory.new .candidates available_penalties.size
  let start : UInt64 := 0
  let end_ : UInt64 := UInt64.ofNat available_penalties.size - 1
  let (current_index, calls) ←
    thresholdSearch memory solve lowest_penalties disparity_graph available_penalties end_.toNat start end_ 0
  let t ← rd available_penalties current_index
  return (t, calls)

/-- `main.cpp:171-195`. -/
def solvedGraph (graph : DisparityGraph F) : M (ConstraintGraph F × Nat) := do
  let lowest_penalties ← mkLowestPenalties memory graph
  let available_penalties ← fetchAvailablePenalties memory lowest_penalties
  let (threshold, calls) ←
    calculateMinimalConsistentThreshold memory solve lowest_penalties graph available_penalties.toArray
  let constraint_graph ← mkConstraintGraph memory calls graph lowest_penalties threshold
  let (constraint_graph, solved) ← solve calls constraint_graph
  if !solved then
    throw (.exc (.logicError "Cannot solve CSP problem. This should not ever happen. Refer to the developers."))
  return (constraint_graph, calls + 1)

/-- `build_disparity_map`; `disparity_graph` is the graph to which `constraint_graph` points. -/
def buildDisparityMap (disparity_graph : DisparityGraph F) (constraint_graph : ConstraintGraph F) : M Image := do
  memory.vector .map (disparity_graph.left.height * disparity_graph.left.width).toNat
  SP.buildDisparityMap constraint_graph

/-- `main.cpp:171-240`. -/
def labeledMap (label : Labeler F) (graph : DisparityGraph F) : M Image := do
  let (constraint_graph, calls) ← solvedGraph memory solve graph
  let (constraint_graph, labeled) ← label calls constraint_graph
  if !labeled then
    throw (.exc (.logicError "Cannot find labeling. This should not ever happen. Refer to the developers."))
  buildDisparityMap memory graph constraint_graph

/-- `read_image`; `number` is that of the image. -/
def readImage (world : World F) (number : Nat) (path : Text) : M Image := do
  let image ← SP.readImage world path
  memory.new (.image number) image.data.size
  return image

/-- `main.cpp:133-170`. -/
def readGraph (world : World F) (options : Options) (left right : Text) : M (DisparityGraph F) := do
  let left_image ← readImage memory world 0 left
  let right_image ← readImage memory world 1 right
  let disparity_levels ← levelsOption left_image options.disparityLevels
  let cleanness ← weightOption options.cleanness
  let smoothness ← weightOption options.smoothness
  mkDisparityGraph memory left_image right_image disparity_levels cleanness smoothness

/-- The inner `try` block, `main.cpp:131-243`. The map is complete before the file is opened. -/
def compute (world : World F) (options : Options) (label : Labeler F) (left right output : Text) : M (Option (Text × Text)) := do
  let graph ← readGraph memory world options left right
  let result ← labeledMap memory world.solve label graph
  let text ← writePgm (some result)
  return if world.writable output then some (output, world.stored output text) else none

/-- An exception with a text: the text may not be allocated. -/
def thrown {α : Type} (m : M α) : M α :=
  match m with
  | .error (.exc e) => if memory .message 0 then .error (.exc e) else .error (.exc .badAlloc)
  | m => m

/-- `main`. -/
def program (world : World F) (commandLine : CommandLine) : M Outcome :=
  if !memory .start 0 then .ok { exit := 1, err := [.unexpected (Exc.what .badAlloc)] }
  else
    match commandLine with
    | .parsed options =>
      match options.outputImage, options.leftImage, options.rightImage with
      | some output, some left, some right =>
        match chooseParallelism world options.parallel with
        | none => SP.program world commandLine
        | some (out, label) => handle out (thrown memory (compute memory world options label left right output))
      | _, _, _ => SP.program world commandLine
    | _ => SP.program world commandLine

end Limited
end SP
