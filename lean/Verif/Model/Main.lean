import Verif.Model.ParPipeline
import Verif.Model.Pgm
/-!
# `lib/main.cpp`: the program

Not modelled here: parsing of the command line (see `CommandLine.lean`; its result is an argument), failures of writing other than
that the file cannot be opened, exhaustion of memory other than for images that are read, the texts appended to messages
(paths, `what()` of library exceptions).
-/
namespace SP
open FloatOps
variable {F : Type} [FloatOps F]

/-- The options of the program, `main.cpp:35-59`: whether and with what value each of them is given. -/
structure Options where
  help : Bool := false
  parallel : Option Text := none
  leftImage : Option Text := none
  rightImage : Option Text := none
  outputImage : Option Text := none
  disparityLevels : Option Text := none
  smoothness : Option Text := none
  cleanness : Option Text := none
  deriving DecidableEq

/-- The result of `parse_command_line` and `store`, `main.cpp:64-67`: the options, or an exception. -/
inductive CommandLine where
  | parsed (options : Options)
  /-- `multiple_occurrences` -/
  | repeated
  /-- any other exception of the library (unknown option, missing value, …) -/
  | wrong
  deriving DecidableEq

/-- What the program prints. -/
inductive Message where
  /-- `main.cpp:71-73` -/
  | onlyOnce
  /-- `main.cpp:103,111,122` -/
  | openCL | cuda | openMP
  /-- `main.cpp:246` -/
  | invalidArgument (what : String)
  /-- `main.cpp:250` -/
  | logicError (what : String)
  /-- `main.cpp:255-257` -/
  | specifyImages
  /-- `main.cpp:261-263` -/
  | specifyOutput
  /-- `main.cpp:267` -/
  | help
  /-- `cuda_csp.cu:45`, to the standard output -/
  | cudaFailure
  /-- `main.cpp:273` -/
  | unexpected (what : String)
  deriving DecidableEq, Repr

/-- What is seen from outside after the program ends: the exit status, standard output, the error stream and the file written. -/
structure Outcome where
  exit : Nat
  out : List Message := []
  err : List Message := []
  written : Option (Text × Text) := none
  deriving DecidableEq, Repr

/-- Everything outside of the program. -/
structure World (F : Type) where
  /-- contents of files that can be opened for reading -/
  file : Text → Option Text
  /-- whether a file can be opened for writing -/
  writable : Text → Bool
  /-- the number of `ULONG` values for which there is memory -/
  memory : Nat
  /-- what happens in the calls of `solve_csp`, which depends on the number of OpenMP threads and on their schedule -/
  solve : Solver F
  /-- `find_labeling_cl` (for a given behaviour of the device) if the program is built with OpenCL -/
  openCL : Option (ConstraintGraph F → M (ConstraintGraph F × Bool)) := none
  /-- `find_labeling_cuda` if the program is built with CUDA -/
  cuda : Option (ConstraintGraph F → M (ConstraintGraph F × Bool)) := none
  /-- how many characters the file system takes for a file; `none` if it takes all of them -/
  room : Text → Option Nat := fun _ => none

/-- `std::tolower` of the classic locale. -/
def toLower (c : UInt8) : UInt8 := if 65 ≤ c && c ≤ 90 then c + 32 else c

/-- `cl` -/
def nameCl : Text := [99, 108]
/-- `opencl` -/
def nameOpenCl : Text := [111, 112, 101, 110, 99, 108]
/-- `cuda` -/
def nameCuda : Text := [99, 117, 100, 97]
/-- `cpu` -/
def nameCpu : Text := [99, 112, 117]
/-- `openmp` -/
def nameOpenMp : Text := [111, 112, 101, 110, 109, 112]
/-- `omp` -/
def nameOmp : Text := [111, 109, 112]

/-- A function that finds a labeling; it gets the number of calls of `solve_csp` made before. -/
abbrev Labeler (F : Type) := Nat → ConstraintGraph F → M (ConstraintGraph F × Bool)

/-- `main.cpp:85-130` together with the `switch` in `main.cpp:198-225`: the message and the function that finds a labeling;
`none` if `std::invalid_argument` is thrown. Branches for OpenCL and CUDA exist if the program is built with them. -/
def chooseParallelism (world : World F) (parallel : Option Text) : Option (List Message × Labeler F) :=
  match parallel with
  | none => some ([], Par.labelCpu world.solve)
  | some value =>
    let input := value.map toLower
    let otherwise :=
      if input = nameCpu ∨ input = nameOpenMp ∨ input = nameOmp then some ([.openMP], Par.labelCpu world.solve) else none
    let otherwise :=
      match world.cuda with
      | some f => if input = nameCuda then some ([.cuda], fun _ => f) else otherwise
      | none => otherwise
    match world.openCL with
    | some f => if input = nameCl ∨ input = nameOpenCl then some ([.openCL], fun _ => f) else otherwise
    | none => otherwise

/-- `read_image`, `main.cpp:281-309`. `operator!` of a stream is `fail()`. -/
def readImage (world : World F) (path : Text) : M Image := do
  match world.file path with
  | none => throw (.exc (.invalidArgument "Unable to open file."))
  | some text =>
    let (image_file, image) ← readPgm world.memory none (.opened text)
    if image_file.fail then
      throw (.exc (.invalidArgument "File is not a correct plain PGM image."))
    match image with
    | none => throw (.exc (.logicError "Image is valid, but it wasn't read for some reason. Please, report the issue to developers."))
    | some image => return image

/-- `main.cpp:139-149`. -/
def levelsOption (left : Image) (value : Option Text) : M UInt64 :=
  match value with
  | none => .ok left.width
  | some t => stoul t

/-- `main.cpp:150-156,157-163`: `ULONG` is converted to `FLOAT`. -/
def weightOption (value : Option Text) : M F :=
  match value with
  | none => .ok (ofNat 1)
  | some t => (stoul t).map fun v => ofNat v.toNat

/-- `main.cpp:133-170`: the disparity graph. -/
def readGraph (world : World F) (options : Options) (left right : Text) : M (DisparityGraph F) := do
  let left_image ← readImage world left
  let right_image ← readImage world right
  let disparity_levels ← levelsOption left_image options.disparityLevels
  let cleanness ← weightOption options.cleanness
  let smoothness ← weightOption options.smoothness
  mkDisparityGraph left_image right_image disparity_levels cleanness smoothness

/-- What gets into the file when this text is written. Nothing is noticed: the stream is not checked after `main.cpp:241`, the rest is
lost when it is closed. -/
def World.stored (world : World F) (path text : Text) : Text :=
  match world.room path with
  | none => text
  | some n => text.take n

/-- The inner `try` block, `main.cpp:131-243`: the file written. -/
def compute (world : World F) (options : Options) (label : Labeler F) (left right output : Text) : M (Option (Text × Text)) := do
  let graph ← readGraph world options left right
  let result ← Par.labeledMap world.solve label graph
  let text ← writePgm (some result)
  return if world.writable output then some (output, world.stored output text) else none

/-- Name of an exception in the message of the outer handler. -/
def Exc.what : Exc → String
  | .invalidArgument w => w
  | .logicError w => w
  | .outOfRange => "stoul"
  | .lengthError => "vector"
  | .badAlloc => "std::bad_alloc"
  | .other w => w

/-- The handlers, `main.cpp:244-251,272-275`. `std::invalid_argument`, `std::out_of_range` and `std::length_error` are derived from
`std::logic_error`. `exit` ends the process, no handlers are executed. -/
def handle (out : List Message) (m : M (Option (Text × Text))) : M Outcome :=
  match m with
  | .ok written => .ok { exit := 0, out := out, written := written }
  | .error (.exc (.invalidArgument w)) => .ok { exit := 0, out := out, err := [.invalidArgument w] }
  | .error (.exc (.logicError w)) => .ok { exit := 0, out := out, err := [.logicError w] }
  | .error (.exc .outOfRange) => .ok { exit := 0, out := out, err := [.logicError (Exc.what .outOfRange)] }
  | .error (.exc .lengthError) => .ok { exit := 0, out := out, err := [.logicError (Exc.what .lengthError)] }
  | .error (.exc e) => .ok { exit := 1, out := out, err := [.unexpected e.what] }
  | .error .exit => .ok { exit := 0, out := out ++ [.cudaFailure] }
  | .error e => .error e

/-- `main`, `main.cpp:33-279`. -/
def program (world : World F) (commandLine : CommandLine) : M Outcome :=
  match commandLine with
  | .repeated => .ok { exit := 1, err := [.onlyOnce] }
  | .wrong => .ok { exit := 1, err := [.unexpected "command line"] }
  | .parsed options =>
    match options.outputImage, options.leftImage, options.rightImage with
    | some output, some left, some right =>
      match chooseParallelism world options.parallel with
      | none => .ok { exit := 1, err := [.unexpected "`parallel` cannot be"] }
      | some (out, label) => handle out (compute world options label left right output)
    | output, left, right =>
      if left = none ∨ right = none then .ok { exit := 0, err := [.specifyImages] }
      else if output = none then .ok { exit := 0, err := [.specifyOutput] }
      else .ok { exit := 1, out := [.help] }

end SP
