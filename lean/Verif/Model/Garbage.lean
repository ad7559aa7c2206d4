import Verif.Model.CudaKernel
/-!
# Memory that is not initialised

`prepare_problem` of CUDA allocates `changed` by `cudaMalloc` (`cuda_csp.cu:83-86`) and never writes it: until work items do it the cell has
whatever is there. OpenCL starts with zeros (`gpu_csp.cpp:72`).
-/
namespace SP
open FloatOps
variable {F D : Type} [FloatOps F] [FloatOps D]

namespace Gpu

/-- `csp_solution_cuda`, `cuda_csp.cu:177-236`, as `cspSolutionCuda` in `Model/Gpu.lean`, but `changed[0]` has been `garbage` before the first launch. -/
def cspSolutionCudaFrom (garbage : Bool) (launch : Launcher D) (graph : ConstraintGraph D) : M (ConstraintGraph D) := do
  let (d, _) ← cfor graph.disparityGraph.right.width.toNat 0
    (fun x => decide (x < graph.disparityGraph.right.width)) inc
    (fun x (s : Device D × Nat) => do
      let s ← cfor graph.disparityGraph.right.height.toNat 0
        (fun y => decide (y < graph.disparityGraph.right.height)) inc
        (fun y (s : Device D × Nat) => do
          let (g, _) ← chooseBestNode s.1.graph { x := x, y := y }
          let d ← launch s.2 { s.1 with graph := g }
          return ((d, s.2 + 1), false))
        s
      return (s, false))
    ({ graph := graph, changed := setAt (fun _ => false) 0 garbage }, 0)
  return d.graph

/-- `find_labeling_cuda`, `labeling_finder.cpp:337-346`, the same way. -/
def findLabelingCudaFrom (garbage : Bool) (conv : F → D) (launch : Launcher D) (graph : ConstraintGraph F) : M (ConstraintGraph F × Bool) := do
  let g ← cspSolutionCudaFrom garbage launch (graph.onDevice conv)
  return ({ graph with nodesAvailability := g.nodesAvailability }, true)

end Gpu

namespace Cuda

/-- `csp_solution_cuda` with kernels of 32 bits, as `Cuda.cspSolution` in `Model/CudaKernel.lean`, but `changed[0]` has been `garbage` before the first launch. -/
def cspSolutionFrom (garbage : Bool) (launch : Launcher D) (graph : ConstraintGraph D) : M (ConstraintGraph D) := do
  let (d, _) ← cfor graph.disparityGraph.right.width.toNat 0
    (fun x => decide (x < graph.disparityGraph.right.width)) SP.inc
    (fun x (s : Device D × Nat) => do
      let s ← cfor graph.disparityGraph.right.height.toNat 0
        (fun y => decide (y < graph.disparityGraph.right.height)) SP.inc
        (fun y (s : Device D × Nat) => do
          let g ← chooseBestNode s.1.graph { x := x.toUInt32, y := y.toUInt32 }
          let d ← launch s.2 { s.1 with graph := g }
          return ((d, s.2 + 1), false))
        s
      return (s, false))
    ({ graph := graph, changed := setAt (fun _ => false) 0 garbage }, 0)
  return d.graph

/-- `find_labeling_cuda`, `labeling_finder.cpp:337-346`, the same way. -/
def findLabelingFrom (garbage : Bool) (conv : F → D) (launch : Launcher D) (graph : ConstraintGraph F) : M (ConstraintGraph F × Bool) := do
  let g ← cspSolutionFrom garbage launch (graph.onDevice conv)
  return ({ graph with nodesAvailability := g.nodesAvailability }, true)

end Cuda
end SP
