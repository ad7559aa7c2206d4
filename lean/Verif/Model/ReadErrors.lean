import Verif.Model.Main
/-!
# Read errors

The program of `Model/Main.lean` with devices that fail instead of reaching the end of a file. If `read` fails, `std::basic_filebuf` throws an
exception, functions of `std::istream` catch it and set `badbit`. This bit is merged with `failbit` here, because the code asks only `fail()`,
`good()` and `eof()`, and clears both together (`pgm_io.cpp:106`).

A directory is such a file: it is opened, and the first `read` fails.

An exception about memory for a string is caught by `operator>>` in the same way; it is also such an error, with the text ending there.
-/
namespace SP
open FloatOps
variable {F : Type} [FloatOps F]

/-- What happens at the end of the text that can be read: `none` is the end of the file; in the case of an error `some cut` says what is left
in the string if the error happens in the middle of a word (libstdc++ appends parts of a word to the string). -/
abbrev Fault := Option (Text → Text)

namespace Faulty
variable (fault : Fault)

/-- `s >> str`, see `IStream.extract`. If an error happens among spaces, the string does not change. -/
def extract (s : IStream) (str : Text) : IStream × Text :=
  if !s.good then (s.setFail, str)
  else
    match s.rest.dropWhile isSpace with
    | [] => ({ rest := [], eof := fault.isNone, fail := true }, str)
    | c :: r =>
      let rest := r.dropWhile (fun c => !isSpace c)
      let word := c :: r.takeWhile (fun c => !isSpace c)
      if rest.isEmpty then
        match fault with
        | none => ({ rest := rest, eof := true, fail := false }, word)
        | some cut => ({ rest := rest, eof := false, fail := true }, cut word)
      else ({ rest := rest, eof := false, fail := false }, word)

/-- `s.ignore(numeric_limits<streamsize>::max(), '\n')`, see `IStream.ignoreLine`. -/
def ignoreLine (s : IStream) : IStream :=
  if !s.good then s.setFail
  else
    match s.rest.dropWhile (fun c => c != newline) with
    | [] => { rest := [], eof := fault.isNone, fail := fault.isSome }
    | _ :: r => { s with rest := r }

/-- `s.get(c)`, see `IStream.get`. -/
def get (s : IStream) (c : Option UInt8) : IStream × Option UInt8 :=
  if !s.good then (s.setFail, c)
  else
    match s.rest with
    | [] => ({ rest := [], eof := fault.isNone, fail := true }, c)
    | b :: r => ({ s with rest := r }, some b)

/-- `PGM_IO::read_pgm_instruction`, `pgm_io.cpp:65-87`. -/
def readPgmInstruction (s : IStream) : M (IStream × Text) := do
  if s.fail then
    return (s, [])
  let (s, current_input) := extract fault s []
  let (s, current_input) ← cwhile (s.rest.length + 1)
    (fun st => st.1.good && st.2.headD 0 == hash)
    (fun st =>
      let s := ignoreLine fault st.1
      if s.fail then .ok ((s, []), true)
      else .ok (extract fault s st.2, false))
    (s, current_input)
  if current_input.headD 0 == hash then
    return (s, [])
  return (s, current_input)

/-- `PGM_IO::check_file_end`, `pgm_io.cpp:89-109`. -/
def checkFileEnd (s : IStream) : M (IStream × Bool) := do
  let (s, _) ← cwhile (s.rest.length + 1)
    (fun st => st.1.good && !st.1.eof)
    (fun st => do
      let (s, current_input) := get fault st.1 st.2
      match current_input with
      | none => .error .ub
      | some c =>
        if c = hash then
          return ((ignoreLine fault s, some c), false)
        else if !(← isspaceChar c) then
          return ((s.setFail, some c), false)
        else
          return ((s, some c), false))
    (s, (none : Option UInt8))
  let s := if s.eof then { s with fail := false } else s
  return (s, s.good)

/-- `pgm_io.cpp:160-168,181-190`. -/
def readNumber (s : IStream) : M (IStream × Option UInt64) := do
  let (s, t) ← readPgmInstruction fault s
  match catchInvalid (stoul t) with
  | .error e => .error e
  | .ok none => .ok (s.setFail, none)
  | .ok (some v) => .ok (s, some v)

/-- The header, `pgm_io.cpp:158-168`. -/
def readHeader (s : IStream) : M (IStream × Option (UInt64 × UInt64 × UInt64)) := do
  let (s, width) ← readNumber fault s
  match width with
  | none => return (s, none)
  | some width =>
    let (s, height) ← readNumber fault s
    match height with
    | none => return (s, none)
    | some height =>
      let (s, max_value) ← readNumber fault s
      match max_value with
      | none => return (s, none)
      | some max_value => return (s, some (width, height, max_value))

/-- The body of the inner loop, `pgm_io.cpp:181-190`. -/
def readPixel (image : Image) (y x : UInt64) (st : ReadState) : M (ReadState × Bool) := do
  let (s, v) ← readNumber fault st.1
  match v with
  | none => return ((s, st.2.1, true), true)
  | some v =>
    let data ← wr st.2.1 (pixelIndex image ⟨x, y⟩) v
    return ((s, data, false), false)

/-- The inner loop, `pgm_io.cpp:179-191`. -/
def readRow (image : Image) (y : UInt64) (st : ReadState) : M ReadState :=
  cfor image.width.toNat 0 (fun x => decide (x < image.width)) inc (readPixel fault image y) st

/-- The loop over rows, `pgm_io.cpp:177-192`. -/
def readData (s : IStream) (image : Image) : M ReadState :=
  cfor image.height.toNat 0 (fun y => decide (y < image.height)) inc
    (fun y st =>
      match readRow fault image y st with
      | .error e => .error e
      | .ok st => .ok (st, st.2.2))
    (s, image.data, false)

/-- `operator>>`, `pgm_io.cpp:146-199`. -/
def readPgm (limit : Nat) (held : Option Image) (s : IStream) : M (IStream × Option Image) := do
  let (s, format_code) ← readPgmInstruction fault s
  if format_code ≠ FORMAT_CODE then
    return (s.setFail, held)
  let (s, header) ← readHeader fault s
  match header with
  | none => return (s, held)
  | some (width, height, max_value) =>
    if max_value > MAX_VALUE_LIMIT then
      return (s.setFail, held)
    let data ← resizeEmpty limit (width * height)
    let (s, data, returned) ← readData fault s ⟨width, height, max_value, data⟩
    if returned then
      return (s, held)
    let (s, _) ← checkFileEnd fault s
    return (s, some ⟨width, height, max_value, data⟩)

/-- `read_image`, `main.cpp:281-309`. -/
def readImage (world : World F) (path : Text) : M Image := do
  match world.file path with
  | none => throw (.exc (.invalidArgument "Unable to open file."))
  | some text =>
    let (image_file, image) ← readPgm fault world.memory none (.opened text)
    if image_file.fail then
      throw (.exc (.invalidArgument "File is not a correct plain PGM image."))
    match image with
    | none => throw (.exc (.logicError "Image is valid, but it wasn't read for some reason. Please, report the issue to developers."))
    | some image => return image

/-- `main.cpp:133-170`; errors of reading of the left and the right image. -/
def readGraph (faultLeft faultRight : Fault) (world : World F) (options : Options) (left right : Text) : M (DisparityGraph F) := do
  let left_image ← readImage faultLeft world left
  let right_image ← readImage faultRight world right
  let disparity_levels ← levelsOption left_image options.disparityLevels
  let cleanness ← weightOption options.cleanness
  let smoothness ← weightOption options.smoothness
  mkDisparityGraph left_image right_image disparity_levels cleanness smoothness

/-- The inner `try` block, `main.cpp:131-243`. -/
def compute (faultLeft faultRight : Fault) (world : World F) (options : Options) (label : Labeler F) (left right output : Text) :
    M (Option (Text × Text)) := do
  let graph ← readGraph faultLeft faultRight world options left right
  let result ← Par.labeledMap world.solve label graph
  let text ← writePgm (some result)
  return if world.writable output then some (output, world.stored output text) else none

/-- `main`, `main.cpp:33-279`. -/
def program (faultLeft faultRight : Fault) (world : World F) (commandLine : CommandLine) : M Outcome :=
  match commandLine with
  | .repeated => .ok { exit := 1, err := [.onlyOnce] }
  | .wrong => .ok { exit := 1, err := [.unexpected "command line"] }
  | .parsed options =>
    match options.outputImage, options.leftImage, options.rightImage with
    | some output, some left, some right =>
      match chooseParallelism world options.parallel with
      | none => .ok { exit := 1, err := [.unexpected "`parallel` cannot be"] }
      | some (out, label) => handle out (compute faultLeft faultRight world options label left right output)
    | output, left, right =>
      if left = none ∨ right = none then .ok { exit := 0, err := [.specifyImages] }
      else if output = none then .ok { exit := 0, err := [.specifyOutput] }
      else .ok { exit := 1, out := [.help] }

end Faulty
end SP
