import Verif.Model.ParPipeline
/-!
# Finding of a labeling on GPU

`lib/solve_csp.cl`, `lib/gpu_csp.cpp` (OpenCL) and `lib/solve_csp.cu`, `lib/cuda_csp.cu` (CUDA).

The device executes the same functions of `constraint_graph.cpp`, `labeling_finder.cpp` etc. as the processor, compiled for other
types: `FLOAT` is `float` there, `BOOL` is `int` (`types.hpp:88-107`). So the functions of the model are used with the arithmetic of the
device, and each flag has a word of its own (`B = 1` in `Model/Parallel.lean`).

Simplifications. `ULONG` is 64 bits wide on the device; this is so for OpenCL, but for CUDA it is `unsigned` (see
`Model/CudaKernel.lean` and C94). Work items access the
memory as described in `Model/Parallel.lean`; a barrier makes everything known to the items of a work group known to all of them;
unsynchronised access to the same cell is not an error in the model. When a kernel ends, the memory is synchronised. Failures of
OpenCL (no device, no memory, compilation errors) are exceptions; of failures of CUDA only limits on the size of launches are modelled.
-/
namespace SP
open FloatOps
variable {F D : Type} [FloatOps F] [FloatOps D]

/-! ## Data on the device -/

/-- What is sent to the device: `prepare_problem` (`gpu_csp.cpp:30-57`), arguments of kernels (`gpu_csp.cpp:83-89`) and
`populate_structures_gpu` (`solve_csp.cl:10-52`); for CUDA `cuda_csp.cu:55-147`, `solve_csp.cu:51-95`. `conv` is conversion of numbers.
Sizes and the maximal value of the right image are used for both images. -/
def DisparityGraph.onDevice (conv : F → D) (graph : DisparityGraph F) : DisparityGraph D :=
  { left :=
      { width := graph.right.width, height := graph.right.height, maxValue := graph.right.maxValue, data := graph.left.data }
    right := graph.right
    disparityLevels := graph.disparityLevels
    reparametrization := graph.reparametrization.map conv
    cleanness := conv graph.cleanness
    smoothness := conv graph.smoothness }

/-- See `DisparityGraph.onDevice`; the flags are `gpu_csp.cpp:70-71`, `cuda_csp.cu:69-72,129-134`. -/
def ConstraintGraph.onDevice (conv : F → D) (graph : ConstraintGraph F) : ConstraintGraph D :=
  { disparityGraph := graph.disparityGraph.onDevice conv
    lowestPenalties :=
      { graph := graph.disparityGraph.onDevice conv
        pixels := graph.lowestPenalties.pixels.map conv
        neighborhoods := graph.lowestPenalties.neighborhoods.map conv }
    nodesAvailability := graph.nodesAvailability
    threshold := conv graph.threshold }

/-- The memory of the device: the graph and the cells `changed[0]`, `changed[1]`. -/
structure Device (F : Type) where
  graph : ConstraintGraph F
  changed : Nat → Bool

namespace Gpu

/-- The word of `changed[k]`: the words after those of the flags. -/
def changedWord (graph : ConstraintGraph F) (k : Nat) : Nat := graph.nodesAvailability.size + k

/-- `changed[k] = b`. -/
def wrChanged (graph : ConstraintGraph F) (k : Nat) (b : Bool) : Prog Unit := .store (changedWord graph k) (fun _ => b) (.ret ())

/-- Reading of `changed[k]`. -/
def rdChanged (graph : ConstraintGraph F) (k : Nat) : Prog Bool :=
  .load (changedWord graph k) fun v => .ret (v (changedWord graph k))

/-! ## Work items -/

/-- The loop of `csp_solution_iteration_gpu`, `solve_csp.cl:61-71` and `solve_csp.cu:104-113`; `mark` is what is done when a node is
removed. -/
def rounds (graph : ConstraintGraph F) (mark : Prog Unit) (pixel : Pixel) : Nat → Prog Unit
  | 0 => .fail .nonterm
  | fuel + 1 =>
    (wrChanged graph 0 false).bind fun _ =>
    .barrier <|
    (Par.cspProcessPixel 1 graph pixel).bind fun changed =>
    (if changed then mark else .ret ()).bind fun _ =>
    .barrier <|
    (rdChanged graph 0).bind fun again =>
    if again then rounds graph mark pixel fuel else .ret ()

/-- The number of rounds allowed in the model; `launch_rounds` in `Lemmas/GpuLaunch.lean` proves that it is enough, so that this bound does not matter. -/
def roundsLimit (graph : ConstraintGraph F) : Nat := graph.nodesAvailability.size + 2

/-- `csp_solution_iteration_gpu`, `solve_csp.cl:54-72`. -/
def cspSolutionIterationCl (graph : ConstraintGraph F) (pixel : Pixel) : Prog Unit :=
  rounds graph ((wrChanged graph 0 true).bind fun _ => wrChanged graph 1 true) pixel (roundsLimit graph)

/-- `csp_solution_iteration_gpu`, `solve_csp.cu:97-114`. -/
def cspSolutionIterationCuda (graph : ConstraintGraph F) (pixel : Pixel) : Prog Unit :=
  rounds graph (wrChanged graph 0 true) pixel (roundsLimit graph)

/-- The pixel of a work item, `solve_csp.cl:119-121`. -/
def itemPixel (graph : ConstraintGraph F) (thread_id : UInt64) : Pixel :=
  { x := thread_id % graph.disparityGraph.right.width
    y := thread_id / graph.disparityGraph.right.width }

/-- The kernel `csp_iteration`, `solve_csp.cl:74-129`. -/
def cspIteration (graph : ConstraintGraph F) (thread_id : UInt64) : Prog Unit :=
  (wrChanged graph 0 false).bind fun _ =>
  (wrChanged graph 1 false).bind fun _ =>
  cspSolutionIterationCl graph (itemPixel graph thread_id)

/-- The pixel of a thread, `solve_csp.cu:156-158`; in the model threads are numbered: the thread `threadIdx.x` of the block `blockIdx.x`
has the number `blockIdx.x * blockDim.x + threadIdx.x`, where `blockDim.x` is the height of the image (`cuda_csp.cu:210-213`). -/
def threadPixel (graph : ConstraintGraph F) (number : UInt64) : Pixel :=
  { x := number / graph.disparityGraph.right.height
    y := number % graph.disparityGraph.right.height }

/-- The kernel `csp_iteration_cuda`, `solve_csp.cu:116-165`. -/
def cspIterationCuda (graph : ConstraintGraph F) (number : UInt64) : Prog Unit :=
  cspSolutionIterationCuda graph (threadPixel graph number)

end Gpu

/-! ## Launches -/

/-- Contents of the words when a kernel is launched. -/
def Device.flags (d : Device F) : Flags := fun i =>
  if i < d.graph.nodesAvailability.size then flagsOf d.graph.nodesAvailability i
  else d.changed (i - d.graph.nodesAvailability.size)

/-- The device with the given contents of words. -/
def Device.withFlags (d : Device F) (m : Flags) : Device F :=
  { graph := d.graph.withFlags m
    changed := fun k => decide (k < 2) && m (Gpu.changedWord d.graph k) }

/-- A kernel: programs of work items by their numbers. -/
abbrev Kernel (F : Type) := ConstraintGraph F → UInt64 → Prog Unit

/-- Work items of a kernel at the launch. -/
def Device.launch (kernel : Kernel F) (d : Device F) : Pool Unit :=
  .start d.flags fun i => kernel d.graph (UInt64.ofNat i)

/-- The number of work items: `gpu_csp.cpp:130`; for CUDA it is the same number, the product of width and height, `cuda_csp.cu:210-213`. -/
def Device.items (d : Device F) : Nat := d.graph.disparityGraph.right.data.size

/-- A possible result of a launch when all work items return. `group` tells the work group of each item. -/
def LaunchTo (kernel : Kernel F) (group : Nat → Nat) (d d' : Device F) : Prop :=
  ∃ P : Pool Unit, Steps false group d.items (d.launch kernel) P ∧ (∀ i, i < d.items → P.prog i = .ret ()) ∧
    d' = d.withFlags (current 1 P.mem)

/-- Work items of the same group do not meet at a barrier: one of them waits and another one has returned. This is undefined behaviour. -/
def Missed (group : Nat → Nat) (n : Nat) (P : Pool Unit) : Prop :=
  ∃ i j k, i < n ∧ j < n ∧ group i = group j ∧ P.prog i = .barrier k ∧ P.prog j = .ret ()

/-- Possible outcomes of a launch: all work items return, one of them fails, or they miss each other at a barrier. Work items are
divided into work groups in one of the `allowed` ways. -/
def LaunchOutcome (kernel : Kernel F) (allowed : (Nat → Nat) → Prop) (d : Device F) : M (Device F) → Prop
  | .ok d' => ∃ group, allowed group ∧ LaunchTo kernel group d d'
  | .error e => ∃ group P, allowed group ∧ Steps false group d.items (d.launch kernel) P ∧
      ((∃ i, i < d.items ∧ P.prog i = .fail e) ∨ (e = .ub ∧ Missed group d.items P))

/-- Results of launches: of the launch number `n` in the state `d`. -/
abbrev Launcher (F : Type) := Nat → Device F → M (Device F)

/-- Each launch has a possible outcome. -/
def Launcher.Possible (kernel : Kernel F) (allowed : (Nat → Nat) → Prop) (launch : Launcher F) : Prop :=
  ∀ n d, LaunchOutcome kernel allowed d (launch n d)

/-! ## The host -/
namespace Gpu

/-- `do … while (changed[1] != 0)`, `gpu_csp.cpp:125-135`. The last argument is the number of launches made so far. -/
def relaunch (launch : Launcher D) : Nat → Device D → Nat → M (Device D × Nat)
  | 0, _, _ => .error .nonterm
  | fuel + 1, d, launches => do
    let d ← launch launches d
    if d.changed 1 then relaunch launch fuel d (launches + 1) else return (d, launches + 1)

/-- `csp_solution_cl`, `gpu_csp.cpp:59-144`, without copying of the data. `choose_best_node_gpu` is executed by a single work item,
`solve_csp.cl:131-176`. The bound on the number of launches is proved to be enough in `Lemmas/GpuHost.lean`. -/
def cspSolutionCl (launch : Launcher D) (graph : ConstraintGraph D) : M (ConstraintGraph D × Bool) := do
  let (d, _) ← cfor graph.disparityGraph.right.width.toNat 0
    (fun x => decide (x < graph.disparityGraph.right.width)) inc
    (fun x (s : Device D × Nat) => do
      let s ← cfor graph.disparityGraph.right.height.toNat 0
        (fun y => decide (y < graph.disparityGraph.right.height)) inc
        (fun y (s : Device D × Nat) => do
          let (g, _) ← chooseBestNode s.1.graph { x := x, y := y }
          let s ← relaunch launch (g.nodesAvailability.size + 1) { s.1 with graph := g } s.2
          return (s, false))
        s
      return (s, false))
    ({ graph := graph, changed := fun _ => false }, 0)
  return (d.graph, d.changed 1)

/-- `csp_solution_cuda`, `cuda_csp.cu:177-236`. -/
def cspSolutionCuda (launch : Launcher D) (graph : ConstraintGraph D) : M (ConstraintGraph D) := do
  let (d, _) ← cfor graph.disparityGraph.right.width.toNat 0
    (fun x => decide (x < graph.disparityGraph.right.width)) inc
    (fun x (s : Device D × Nat) => do
      let s ← cfor graph.disparityGraph.right.height.toNat 0
        (fun y => decide (y < graph.disparityGraph.right.height)) inc
        (fun y (s : Device D × Nat) => do
          let (g, _) ← chooseBestNode s.1.graph { x := x, y := y }
          let d ← launch s.2 { s.1 with graph := g }
          return ((d, s.2 + 1), false))
        s
      return (s, false))
    ({ graph := graph, changed := fun _ => false }, 0)
  return d.graph

/-- `find_labeling_cl`, `labeling_finder.cpp:324-333`: the availability is copied back, the result of `csp_solution_cl` is not used. -/
def findLabelingCl (conv : F → D) (launch : Launcher D) (graph : ConstraintGraph F) : M (ConstraintGraph F × Bool) := do
  let (g, _) ← cspSolutionCl launch (graph.onDevice conv)
  return ({ graph with nodesAvailability := g.nodesAvailability }, true)

/-- `find_labeling_cuda`, `labeling_finder.cpp:337-346`, with `free_problem`, `cuda_csp.cu:149-175`. -/
def findLabelingCuda (conv : F → D) (launch : Launcher D) (graph : ConstraintGraph F) : M (ConstraintGraph F × Bool) := do
  let g ← cspSolutionCuda launch (graph.onDevice conv)
  return ({ graph with nodesAvailability := g.nodesAvailability }, true)

/-! ### Failures of OpenCL -/

/-- `find_labeling_cl` when OpenCL may fail. There is no device, the program is not compiled, there is no memory, a kernel is not
launched…: `boost::compute` throws an exception derived from `std::exception` only, whatever has been done till then is
lost. `failure` tells for which graphs this happens. -/
def findLabelingClFailing (failure : ConstraintGraph F → Option String) (conv : F → D) (launch : Launcher D)
    (graph : ConstraintGraph F) : M (ConstraintGraph F × Bool) :=
  match failure graph with
  | some what => .error (.exc (.other what))
  | none => findLabelingCl conv launch graph

/-! ### Limits of CUDA -/

/-- The largest numbers of threads in a block (1024 on present devices) and of blocks. -/
structure Limits where
  threads : Nat
  blocks : Nat

/-- A launch of `csp_iteration_cuda` is possible: a block for each column, a thread in it for each row (`cuda_csp.cu:210-213`). -/
def Limits.Fits (limits : Limits) (graph : ConstraintGraph D) : Prop :=
  graph.disparityGraph.right.height.toNat ≤ limits.threads ∧ graph.disparityGraph.right.width.toNat ≤ limits.blocks

instance (limits : Limits) (graph : ConstraintGraph D) : Decidable (limits.Fits graph) := inferInstanceAs (Decidable (_ ∧ _))

/-- `cudaCheckError`, `cuda_csp.cu:42-48`: `failed` is whether the last launch failed. -/
def cudaCheckError (failed : Bool) : M Unit := if failed then .error .exit else .ok ()

/-- `csp_solution_cuda`, `cuda_csp.cu:177-236`, on a device with limits. A launch that is not possible does nothing and is noticed by the next check. -/
def cspSolutionCudaLimited (limits : Limits) (launch : Launcher D) (graph : ConstraintGraph D) : M (ConstraintGraph D) := do
  let (d, _, failed) ← cfor graph.disparityGraph.right.width.toNat 0
    (fun x => decide (x < graph.disparityGraph.right.width)) inc
    (fun x (s : Device D × Nat × Bool) => do
      let s ← cfor graph.disparityGraph.right.height.toNat 0
        (fun y => decide (y < graph.disparityGraph.right.height)) inc
        (fun y (s : Device D × Nat × Bool) => do
          cudaCheckError s.2.2
          let (g, _) ← chooseBestNode s.1.graph { x := x, y := y }
          if limits.Fits graph then
            let d ← launch s.2.1 { s.1 with graph := g }
            return ((d, s.2.1 + 1, s.2.2), false)
          else
            return (({ s.1 with graph := g }, s.2.1 + 1, true), false))
        s
      return (s, false))
    ({ graph := graph, changed := fun _ => false }, 0, false)
  cudaCheckError failed
  return d.graph

/-- `find_labeling_cuda`, `labeling_finder.cpp:337-346`, on a device with limits. -/
def findLabelingCudaLimited (limits : Limits) (conv : F → D) (launch : Launcher D) (graph : ConstraintGraph F) :
    M (ConstraintGraph F × Bool) := do
  let g ← cspSolutionCudaLimited limits launch (graph.onDevice conv)
  return ({ graph with nodesAvailability := g.nodesAvailability }, true)

end Gpu
end SP
