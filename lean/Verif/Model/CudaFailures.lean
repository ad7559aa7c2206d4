import Verif.Model.CudaKernel
/-!
# Failures of CUDA

`lib/cuda_csp.cu`. Each call of the CUDA runtime may fail: there is no device, there is no memory, a kernel cannot be launched, a kernel is killed…
What is done then depends on the place. Calls wrapped in `cdpErrchk` (`cuda_csp.cu:32-40`) print a message and call `assert`, which ends the process
if it is compiled and does nothing otherwise (`NDEBUG`). Launches of kernels are checked by `cudaCheckError` (`cuda_csp.cu:42-48`), which calls `exit`.

Simplifications: the message of `cdpErrchk` is not modelled; `std::bad_alloc` of vectors in `prepare_problem` and `free_problem` is not modelled. If
`cudaMalloc` fails, its pointer is not initialised and later calls receive it; here the results of these calls are arbitrary as well.
-/
namespace SP.Gpu
open FloatOps
variable {F D : Type} [FloatOps F] [FloatOps D]

/-- What happens to a call. -/
inductive Verdict
  /-- it succeeds -/
  | fine
  /-- it fails, later ones may succeed -/
  | refused
  /-- it fails, and so do all later ones -/
  | lost
  /-- it succeeds, but all later ones fail: a kernel is launched and is killed, or the device is lost in the meantime -/
  | later
  deriving DecidableEq

/-- What happens to the calls. Launches and checks are numbered by pixels. -/
structure Trouble where
  /-- 7 calls of `cudaMalloc` and 6 of `cudaMemcpy`, `cuda_csp.cu:82-146` -/
  prepare : Nat → Verdict
  /-- whether `cudaGetLastError` tells that the device is lost: it may tell it later -/
  notice : Nat → Bool
  /-- launches of `choose_best_node_gpu`, `cuda_csp.cu:188-208` -/
  choose : Nat → Verdict
  /-- launches of `csp_iteration_cuda`, `cuda_csp.cu:210-231` -/
  iterate : Nat → Verdict
  /-- the last check, `cuda_csp.cu:234` -/
  noticeLast : Bool
  /-- calls after it, `cuda_csp.cu:235,152-174` -/
  finish : Nat → Verdict
  /-- which flags are copied by `cudaMemcpy` that fails, `cuda_csp.cu:152-157` -/
  copied : Nat → Bool

/-- The state of the runtime: `cudaGetLastError` returns an error; all calls fail. -/
structure Runtime where
  last : Bool := false
  lost : Bool := false
  deriving DecidableEq

/-- A call of the runtime: whether it succeeds, and the next state. -/
def Runtime.call (r : Runtime) (v : Verdict) : Bool × Runtime :=
  if r.lost then (false, { r with last := true })
  else
    match v with
    | .fine => (true, r)
    | .refused => (false, { r with last := true })
    | .lost => (false, { last := true, lost := true })
    | .later => (true, { r with lost := true })

/-- Calls wrapped in `cdpErrchk`, `cuda_csp.cu:32-40`; `none` if the process is ended by `assert`. -/
def errchk (asserts : Bool) (r : Runtime) : List Verdict → Option Runtime
  | [] => some r
  | v :: rest => if asserts && !(r.call v).1 then none else errchk asserts (r.call v).2 rest

/-- A kernel that is launched is executed if its launch succeeds and the device is not lost. -/
def Runtime.executed (r : Runtime) (v : Verdict) : Bool := (r.call v).1 && !(r.call v).2.lost

/-- `csp_solution_cuda`, `cuda_csp.cu:177-234`, when calls may fail. `best` is the kernel `choose_best_node_gpu`. -/
def cspSolutionFailing (trouble : Trouble) (best : ConstraintGraph D → UInt64 → UInt64 → M (ConstraintGraph D)) (launch : Launcher D)
    (graph : ConstraintGraph D) (r : Runtime) : M (ConstraintGraph D × Runtime) := do
  let (d, _, r) ← cfor graph.disparityGraph.right.width.toNat 0
    (fun x => decide (x < graph.disparityGraph.right.width)) inc
    (fun x (s : Device D × Nat × Runtime) => do
      let s ← cfor graph.disparityGraph.right.height.toNat 0
        (fun y => decide (y < graph.disparityGraph.right.height)) inc
        (fun y (s : Device D × Nat × Runtime) => do
          cudaCheckError (s.2.2.last || (s.2.2.lost && trouble.notice s.2.1))
          let g ← if s.2.2.executed (trouble.choose s.2.1) then best s.1.graph x y else pure s.1.graph
          let r := (s.2.2.call (trouble.choose s.2.1)).2
          let d ← if r.executed (trouble.iterate s.2.1) then launch s.2.1 { s.1 with graph := g } else pure { s.1 with graph := g }
          return ((d, s.2.1 + 1, (r.call (trouble.iterate s.2.1)).2), false))
        s
      return (s, false))
    ({ graph := graph, changed := fun _ => false }, 0, r)
  cudaCheckError (r.last || (r.lost && trouble.noticeLast))
  return (d.graph, r)

/-- `find_labeling_cuda`, `labeling_finder.cpp:337-346`, with `prepare_problem` and `free_problem`, `cuda_csp.cu:54-175`, when calls may fail; `none` if
the process is ended by `assert`. Flags are copied to a vector of zeros, `cuda_csp.cu:151`. -/
def findLabelingFailing (asserts : Bool) (trouble : Trouble) (best : ConstraintGraph D → UInt64 → UInt64 → M (ConstraintGraph D)) (conv : F → D)
    (launch : Launcher D) (graph : ConstraintGraph F) : M (Option (ConstraintGraph F × Bool)) := do
  match errchk asserts {} ((List.range 13).map trouble.prepare) with
  | none => return none
  | some r =>
    let (g, r) ← cspSolutionFailing trouble best launch (graph.onDevice conv) r
    match errchk asserts r [trouble.finish 0] with
    | none => return none
    | some r =>
      if asserts && !(r.call (trouble.finish 1)).1 then return none
      let flags :=
        if (r.call (trouble.finish 1)).1 then g.nodesAvailability
        else if r.lost then Array.replicate graph.nodesAvailability.size false
        else g.nodesAvailability.mapIdx fun i a => a && trouble.copied i
      match errchk asserts (r.call (trouble.finish 1)).2 ((List.range 9).map fun i => trouble.finish (i + 2)) with
      | none => return none
      | some _ => return some ({ graph with nodesAvailability := flags }, true)

/-- The kernel `choose_best_node_gpu` that computes with 64 bits, as in `cspSolutionCuda`. -/
def best64 (graph : ConstraintGraph D) (x y : UInt64) : M (ConstraintGraph D) := do
  let (g, _) ← chooseBestNode graph { x := x, y := y }
  return g

/-- The same with 32 bits, as in `Cuda.cspSolution`. -/
def best32 (graph : ConstraintGraph D) (x y : UInt64) : M (ConstraintGraph D) := Cuda.chooseBestNode graph { x := x.toUInt32, y := y.toUInt32 }

/-- `find_labeling_cuda` of a program compiled with `NDEBUG`: `assert` does nothing, so `none` is not possible (`findLabelingFailing_release`). -/
def findLabelingRelease (trouble : Trouble) (best : ConstraintGraph D → UInt64 → UInt64 → M (ConstraintGraph D)) (conv : F → D) (launch : Launcher D)
    (graph : ConstraintGraph F) : M (ConstraintGraph F × Bool) := do
  match ← findLabelingFailing false trouble best conv launch graph with
  | none => .error .ub
  | some r => return r

end SP.Gpu
