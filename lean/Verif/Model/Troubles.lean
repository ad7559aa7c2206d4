import Verif.Model.Memory
import Verif.Model.ReadErrors
/-!
# Everything fails at once

The program of `Model/Main.lean` with errors of reading (`Model/ReadErrors.lean`) and allocations that fail (`Model/Memory.lean`). Failures of
devices are functions of `World.openCL` and `World.cuda` (`Model/Gpu.lean`, `Model/CudaFailures.lean`), and files that do not fit are
`World.room`.
-/
namespace SP
variable {F : Type} [FloatOps F]

namespace Troubled
variable (memory : Memory)

/-- `read_image`, `main.cpp:281-309`; `number` is that of the image. -/
def readImage (fault : Fault) (world : World F) (number : Nat) (path : Text) : M Image := do
  let image ← Faulty.readImage fault world path
  memory.new (.image number) image.data.size
  return image

variable (faultLeft faultRight : Fault)

/-- `main.cpp:133-170`. -/
def readGraph (world : World F) (options : Options) (left right : Text) : M (DisparityGraph F) := do
  let left_image ← readImage memory faultLeft world 0 left
  let right_image ← readImage memory faultRight world 1 right
  let disparity_levels ← levelsOption left_image options.disparityLevels
  let cleanness ← weightOption options.cleanness
  let smoothness ← weightOption options.smoothness
  Limited.mkDisparityGraph memory left_image right_image disparity_levels cleanness smoothness

/-- The inner `try` block, `main.cpp:131-243`. -/
def compute (world : World F) (options : Options) (label : Labeler F) (left right output : Text) : M (Option (Text × Text)) := do
  let graph ← readGraph memory faultLeft faultRight world options left right
  let result ← Limited.labeledMap memory world.solve label graph
  let text ← writePgm (some result)
  return if world.writable output then some (output, world.stored output text) else none

/-- `main`, `main.cpp:33-279`. -/
def program (world : World F) (commandLine : CommandLine) : M Outcome :=
  if !memory .start 0 then .ok { exit := 1, err := [.unexpected (Exc.what .badAlloc)] }
  else
    match commandLine with
    | .parsed options =>
      match options.outputImage, options.leftImage, options.rightImage with
      | some output, some left, some right =>
        match chooseParallelism world options.parallel with
        | none => SP.program world commandLine
        | some (out, label) =>
          handle out (Limited.thrown memory (compute memory faultLeft faultRight world options label left right output))
      | _, _, _ => SP.program world commandLine
    | _ => SP.program world commandLine

end Troubled
end SP
