import Verif.Model.Pipeline
/-!
# Concurrent execution: OpenMP workers of `solve_csp`

The functions of `constraint_graph.cpp` that read and write availability flags, written once more as programs of one worker:
sequences of accesses to the shared memory. `Model/Constraint.lean` has the same functions for a single worker;
`Lemmas/ParSeq.lean` proves that a worker running alone does exactly what is written there.

Flags are kept in words of `B` flags each. On CPU `BOOL_ARRAY` is `std::vector<bool>` (`types.hpp:82`) that packs 64 flags in a
word; writing a flag loads the word and stores it back with one bit changed. On GPU it is an array of `int`
(`types.hpp:95,107`), `B = 1`. An access to a word is atomic; according to the standard of C++ unsynchronised access to the
same word is undefined behaviour, which is not what this model is about.
-/
namespace SP
open FloatOps

/-- Contents of the memory, or of a word of it: values of flags by their numbers. -/
abbrev Flags := Nat → Bool

/-- Program of one worker: what it does with the shared memory until it returns. Words are numbered. -/
inductive Prog (α : Type) where
  /-- returns a value -/
  | ret (a : α)
  /-- ends otherwise -/
  | fail (e : Err)
  /-- loads a word -/
  | load (w : Nat) (k : Flags → Prog α)
  /-- stores a word (only the flags that belong to the word count) -/
  | store (w : Nat) (v : Flags) (k : Prog α)
  /-- waits for other workers of its group -/
  | barrier (k : Prog α)

namespace Prog

/-- Sequential composition. -/
def bind {α β : Type} : Prog α → (α → Prog β) → Prog β
  | ret a, f => f a
  | fail e, _ => fail e
  | load w k, f => load w fun v => bind (k v) f
  | store w v k, f => store w v (bind k f)
  | barrier k, f => barrier (bind k f)

instance : Monad Prog where
  pure := ret
  bind := bind

/-- A computation that does not access the shared memory. -/
def lift {α : Type} : M α → Prog α
  | .ok a => ret a
  | .error e => fail e

end Prog

/-- The C loop of `cfor` for programs of workers. -/
def pfor {ι σ : Type} (fuel : Nat) (i : ι) (cond : ι → Bool) (step : ι → ι)
    (body : ι → σ → Prog (σ × Bool)) (s : σ) : Prog σ :=
  match fuel with
  | 0 => if cond i then .fail .nonterm else .ret s
  | fuel + 1 =>
    if cond i then
      (body i s).bind fun r =>
        if r.2 then .ret r.1 else pfor fuel (step i) cond step body r.1
    else .ret s

/-! ## Functions of `constraint_graph.cpp` -/
namespace Par
variable {F : Type} [FloatOps F] (B : Nat)

/-- Reads the flag `i` of `size` ones. -/
def rdFlag (size : Nat) (i : UInt64) : Prog Bool :=
  if i.toNat < size then .load (i.toNat / B) fun v => .ret (v i.toNat) else .fail .ub

/-- Writes the flag `i` of `size` ones: the word is loaded and stored. -/
def wrFlag (size : Nat) (i : UInt64) (b : Bool) : Prog Unit :=
  if i.toNat < size then
    .load (i.toNat / B) fun v => .store (i.toNat / B) (fun j => if j = i.toNat then b else v j) (.ret ())
  else .fail .ub

/-- `make_node_unavailable`, `constraint_graph.cpp:124-131`. -/
def makeNodeUnavailable (graph : ConstraintGraph F) (node : Node) : Prog Unit :=
  wrFlag B graph.nodesAvailability.size (nodeIndex graph.disparityGraph node) false

/-- `make_all_nodes_unavailable`, `constraint_graph.cpp:133-146`. -/
def makeAllNodesUnavailable (graph : ConstraintGraph F) : Prog Unit :=
  pfor (nodesCount graph.disparityGraph).toNat 0
    (fun index => decide (index < nodesCount graph.disparityGraph)) inc
    (fun index _ => do
      wrFlag B graph.nodesAvailability.size index false
      return ((), false))
    ()

/-- `is_node_available`, `constraint_graph.cpp:148-156`. -/
def isNodeAvailable (graph : ConstraintGraph F) (node : Node) : Prog Bool :=
  rdFlag B graph.nodesAvailability.size (nodeIndex graph.disparityGraph node)

/-- `is_edge_available`, `constraint_graph.cpp:158-170`. -/
def isEdgeAvailable (graph : ConstraintGraph F) (edge : Edge) : Prog Bool := do
  let p ← .lift (edgePenalty graph.disparityGraph edge)
  let l ← .lift (lowestNeighborhoodPenalty graph.lowestPenalties edge)
  if !le (sub p l) graph.threshold then return false
  if !(← isNodeAvailable B graph edge.node) then return false
  if !(← isNodeAvailable B graph edge.neighbor) then return false
  return edgeExists graph.disparityGraph edge

/-- The search for an available edge to one neighbor in `should_remove_node`, `constraint_graph.cpp:205-233`. -/
def edgeFound (graph : ConstraintGraph F) (node : Node) (neighbor : Pixel) : Prog Bool :=
  pfor graph.disparityGraph.disparityLevels.toNat (removalInitialDisparity node neighbor)
    (fun d' => decide (neighbor.x + d' < graph.disparityGraph.left.width)
      && decide (d' < graph.disparityGraph.disparityLevels)) inc
    (fun d' edge_found => do
      if (← isEdgeAvailable B graph
          { node := node, neighbor := { pixel := neighbor, disparity := d' } }) then
        return (true, true)
      return (edge_found, false))
    false

/-- `should_remove_node`, `constraint_graph.cpp:172-240`. -/
def shouldRemoveNode (graph : ConstraintGraph F) (node : Node) : Prog Bool := do
  if !(← isNodeAvailable B graph node) then return false
  pfor 4 0 (fun n => decide (n < NEIGHBORS_COUNT)) inc
    (fun neighbor_index r => do
      if !neighborhoodExistsFast graph.disparityGraph node.pixel neighbor_index then
        return (r, false)
      if !(← edgeFound B graph node (neighborByIndex node.pixel neighbor_index)) then
        return (true, true)
      return (r, false))
    false

/-- `check_nodes_left`, `constraint_graph.cpp:242-259`. -/
def checkNodesLeft (graph : ConstraintGraph F) : Prog Bool :=
  pfor (nodesCount graph.disparityGraph).toNat 0
    (fun index => decide (index < nodesCount graph.disparityGraph)) inc
    (fun index r => do
      if (← rdFlag B graph.nodesAvailability.size index) then return (true, true)
      return (r, false))
    false

/-- `csp_process_pixel`, `constraint_graph.cpp:261-285`. -/
def cspProcessPixel (graph : ConstraintGraph F) (pixel : Pixel) : Prog Bool :=
  pfor graph.disparityGraph.disparityLevels.toNat 0
    (fun d => decide (pixel.x + d < graph.disparityGraph.right.width)
      && decide (d < graph.disparityGraph.disparityLevels)) inc
    (fun d changed => do
      let node : Node := { pixel := pixel, disparity := d }
      if (← shouldRemoveNode B graph node) then
        makeNodeUnavailable B graph node
        return (true, false)
      return (changed, false))
    false

/-- The loop that computes `pixel_available`, `constraint_graph.cpp:319-332`. -/
def pixelAvailable (graph : ConstraintGraph F) (pixel : Pixel) : Prog Bool :=
  pfor graph.disparityGraph.disparityLevels.toNat 0
    (fun d => decide (pixel.x + d < graph.disparityGraph.right.width)
      && decide (d < graph.disparityGraph.disparityLevels)) inc
    (fun d r => do
      if (← isNodeAvailable B graph { pixel := pixel, disparity := d }) then
        return (true, false)
      return (r, false))
    false

/-- `csp_solution_iteration`, `constraint_graph.cpp:287-353`: the program of the worker `job_number` of `jobs`. -/
def cspSolutionIteration (graph : ConstraintGraph F) (jobs job_number : UInt64) : Prog Bool := do
  if job_number ≥ graph.disparityGraph.right.height then
    return false
  let changed := false
  let pixel_available ← pfor graph.disparityGraph.right.height.toNat job_number
    (fun y => decide (y < graph.disparityGraph.right.height)) (fun y => y + jobs)
    (fun y pixel_available => do
      let pixel_available ← pfor graph.disparityGraph.right.width.toNat 0
        (fun x => decide (x < graph.disparityGraph.right.width)) inc
        (fun x _ => do
          let pixel : Pixel := { x := x, y := y }
          let _ ← cspProcessPixel B graph pixel
          let pixel_available ← pixelAvailable B graph pixel
          if !pixel_available then return (pixel_available, true)
          return (pixel_available, false))
        pixel_available
      if !pixel_available then return (pixel_available, true)
      return (pixel_available, false))
    false
  if !pixel_available then
    if !(← checkNodesLeft B graph) then
      return false
    makeAllNodesUnavailable B graph
    return true
  return changed

end Par

/-! ## Execution -/

/-- A pool of workers: for each word all the values it has had since the beginning (in the order of stores); what is left to do
for each worker; for each worker and each word, the number of the latest value of the word this worker has seen or stored. -/
structure Pool (α : Type) where
  mem : Nat → List Flags
  prog : Nat → Prog α
  seen : Nat → Nat → Nat

/-- Replaces one value of a function. -/
def setAt {β : Type} (f : Nat → β) (i : Nat) (b : β) : Nat → β := fun j => if j = i then b else f j

/-- One step of one of `n` workers, or of a group of them at a barrier. A load of a word may give any value the word has had, but not
an older one than the worker itself has already seen: other workers may learn about a store later, and about stores to
different words in different order. With `fresh = true` a load gives the current value only: this is the usual interleaving. After a
barrier workers of the group know everything that any of them knew. -/
inductive Step {α : Type} (fresh : Bool) (group : Nat → Nat) (n : Nat) : Pool α → Pool α → Prop where
  | load {P : Pool α} {i w t : Nat} {k : Flags → Prog α} {v : Flags} (hi : i < n) (hp : P.prog i = .load w k)
      (hv : (P.mem w)[t]? = some v) (ht : P.seen i w ≤ t) (hf : fresh = true → t + 1 = (P.mem w).length) :
      Step fresh group n P
        { mem := P.mem
          prog := setAt P.prog i (k v)
          seen := setAt P.seen i (setAt (P.seen i) w t) }
  | store {P : Pool α} {i w : Nat} {k : Prog α} {v : Flags} (hi : i < n) (hp : P.prog i = .store w v k) :
      Step fresh group n P
        { mem := setAt P.mem w (P.mem w ++ [v])
          prog := setAt P.prog i k
          seen := setAt P.seen i (setAt (P.seen i) w (P.mem w).length) }
  | barrier {P : Pool α} {γ : Nat} {k : Nat → Prog α} {seen : Nat → Nat → Nat} (hne : ∃ i, i < n ∧ group i = γ)
      (hp : ∀ i, i < n → group i = γ → P.prog i = .barrier (k i))
      (hle : ∀ i j w, i < n → group i = γ → j < n → group j = γ → P.seen j w ≤ seen i w)
      (hex : ∀ i w, i < n → group i = γ → ∃ j, j < n ∧ group j = γ ∧ seen i w = P.seen j w)
      (hout : ∀ i, ¬ (i < n ∧ group i = γ) → seen i = P.seen i) :
      Step fresh group n P
        { mem := P.mem
          prog := fun i => if i < n ∧ group i = γ then k i else P.prog i
          seen := seen }

/-- Any number of steps. -/
inductive Steps {α : Type} (fresh : Bool) (group : Nat → Nat) (n : Nat) : Pool α → Pool α → Prop where
  | refl (P : Pool α) : Steps fresh group n P P
  | step {P Q R : Pool α} (h : Steps fresh group n P Q) (h' : Step fresh group n Q R) : Steps fresh group n P R

/-- Memory that has only its present contents. -/
def memOf (m : Flags) : Nat → List Flags := fun _ => [m]

/-- Present contents of the memory with words of `B` flags. -/
def current (B : Nat) (mem : Nat → List Flags) : Flags := fun i => ((mem (i / B)).getLastD fun _ => false) i

/-- Flags of an array. -/
def flagsOf (a : Array Bool) : Flags := fun i => a.getD i false

/-- The graph with the given flags. -/
def ConstraintGraph.withFlags {F : Type} (c : ConstraintGraph F) (m : Flags) : ConstraintGraph F :=
  { c with nodesAvailability := Array.ofFn (n := c.nodesAvailability.size) fun i => m i }

/-- Workers at the beginning of a parallel section: the memory is the same for all of them. -/
def Pool.start {α : Type} (m : Flags) (prog : Nat → Prog α) : Pool α :=
  { mem := memOf m
    prog := prog
    seen := fun _ _ => 0 }

/-! ## `solve_csp` -/
section
variable {F : Type} [FloatOps F]

/-- The workers of one execution of the body of `while (changed)` in `solve_csp`, `constraint_graph.cpp:364-371`, at its beginning.
Iterations of the `for` loop are distributed among threads by OpenMP in an unspecified way; here each of them is a
worker of its own, which allows all of that. `jobs` is the value of `THREADS_NUMBER` in the body of the loop. -/
def roundStart (B : Nat) (jobs : UInt64) (c : ConstraintGraph F) : Pool Bool :=
  .start (flagsOf c.nodesAvailability) fun i => Par.cspSolutionIteration B c jobs (UInt64.ofNat i)

/-- A possible result of the round of `n` iterations, in any order of accesses: all the workers have returned. The reduction of
`changed` is `||`. At the end of the parallel region the memory is synchronised. -/
def RoundTo (B n : Nat) (jobs : UInt64) (c c' : ConstraintGraph F) (changed : Bool) : Prop :=
  ∃ (P : Pool Bool) (r : Nat → Bool), Steps false (fun _ => 0) n (roundStart B jobs c) P ∧
    (∀ i, i < n → P.prog i = .ret (r i)) ∧
    (changed = true ↔ ∃ i, i < n ∧ r i = true) ∧
    c' = c.withFlags (current B P.mem)

/-- A possible final state of the loop `while (changed)`, `constraint_graph.cpp:362-372`. -/
inductive LoopTo (B n : Nat) (jobs : UInt64) : ConstraintGraph F → ConstraintGraph F → Prop where
  | last {c c' : ConstraintGraph F} (h : RoundTo B n jobs c c' false) : LoopTo B n jobs c c'
  | again {c c' c'' : ConstraintGraph F} (h : RoundTo B n jobs c c' true) (h' : LoopTo B n jobs c' c'') :
      LoopTo B n jobs c c''

/-- A possible result of `solve_csp` compiled with OpenMP and executed by `jobs` threads, `constraint_graph.cpp:356-374`:
`THREADS_NUMBER` has the value `jobs` both in the condition of the loop and in its body. -/
def SolveTo (B : Nat) (jobs : UInt64) (c c' : ConstraintGraph F) (solved : Bool) : Prop :=
  LoopTo B jobs.toNat jobs c c' ∧ checkNodesLeft c' = .ok solved

end
end SP
