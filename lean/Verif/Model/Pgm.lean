import Verif.Model.Disparity
/-!
# `lib/pgm_io.cpp`: plain PGM input and output

Streams are modelled on the level of bytes. `char` is signed (x86-64 Linux). The locale is the classic one.
Errors of the device (`badbit`) are in `Model/ReadErrors.lean`; failures of writing are in `World.room`.
-/
namespace SP

/-- Contents of a stream or a string. -/
abbrev Text := List UInt8

/-- `isspace` of the classic locale for bytes it is defined for: space, `\t`, `\n`, `\v`, `\f`, `\r`. -/
def isSpace (c : UInt8) : Bool := c == 32 || (9 ≤ c && c ≤ 13)

/-- `isdigit`. -/
def isDigit (c : UInt8) : Bool := 48 ≤ c && c ≤ 57

/-- The byte `#`. -/
def hash : UInt8 := 35
/-- The byte `\n`. -/
def newline : UInt8 := 10

/-- State of `std::istream`: what is not read yet, `eofbit` and `failbit`. -/
structure IStream where
  rest : Text
  eof : Bool
  fail : Bool
  deriving DecidableEq, Repr

namespace IStream

/-- A stream that has just been opened. -/
def opened (text : Text) : IStream := { rest := text, eof := false, fail := false }

/-- `good()`. -/
def good (s : IStream) : Bool := !s.eof && !s.fail

/-- `setstate(failbit)`. -/
def setFail (s : IStream) : IStream := { s with fail := true }

/-- `s >> str` for `std::string str`: the sentry skips whitespace; if the stream was not good or ends here, `failbit` is set and
`str` does not change. Otherwise `str` is everything up to the next whitespace or the end, in the latter case `eofbit` is set.
The maximal size of a string is not modelled. -/
def extract (s : IStream) (str : Text) : IStream × Text :=
  if !s.good then (s.setFail, str)
  else
    match s.rest.dropWhile isSpace with
    | [] => ({ rest := [], eof := true, fail := true }, str)
    | c :: r =>
      let rest := r.dropWhile (fun c => !isSpace c)
      ({ rest := rest, eof := rest.isEmpty, fail := false }, c :: r.takeWhile (fun c => !isSpace c))

/-- `s.ignore(numeric_limits<streamsize>::max(), '\n')`: skips everything up to and including the next end of line;
sets `eofbit` if there is none. -/
def ignoreLine (s : IStream) : IStream :=
  if !s.good then s.setFail
  else
    match s.rest.dropWhile (fun c => c != newline) with
    | [] => { rest := [], eof := true, fail := false }
    | _ :: r => { s with rest := r }

/-- `s.get(c)` for `char c`: at the end of the stream sets `eofbit` and `failbit` and does not change `c`.
`none` is the value of an uninitialised variable. -/
def get (s : IStream) (c : Option UInt8) : IStream × Option UInt8 :=
  if !s.good then (s.setFail, c)
  else
    match s.rest with
    | [] => ({ rest := [], eof := true, fail := true }, c)
    | b :: r => ({ s with rest := r }, some b)

end IStream

/-- `PGM_IO::read_pgm_instruction`, `pgm_io.cpp:65-87`. An iteration of the loop reads at least one byte, so the fuel suffices.
`current_input[0]` is the zero byte for an empty string. -/
def readPgmInstruction (s : IStream) : M (IStream × Text) := do
  if s.fail then
    return (s, [])
  let (s, current_input) := s.extract []
  let (s, current_input) ← cwhile (s.rest.length + 1)
    (fun st => st.1.good && st.2.headD 0 == hash)
    (fun st =>
      let s := st.1.ignoreLine
      if s.fail then .ok ((s, []), true)
      else .ok (s.extract st.2, false))
    (s, current_input)
  if current_input.headD 0 == hash then
    return (s, [])
  return (s, current_input)

/-- `isspace(c)` for `char c`, `pgm_io.cpp:99`. The argument should be representable as `unsigned char` or be `EOF` (`-1`);
for other negative values the behaviour is undefined. -/
def isspaceChar (c : UInt8) : M Bool :=
  if 128 ≤ c ∧ c < 255 then .error .ub else .ok (isSpace c)

/-- `PGM_IO::check_file_end`, `pgm_io.cpp:89-109`. An iteration of the loop reads a byte or is the last one, so the fuel
suffices. -/
def checkFileEnd (s : IStream) : M (IStream × Bool) := do
  let (s, _) ← cwhile (s.rest.length + 1)
    (fun st => st.1.good && !st.1.eof)
    (fun st => do
      let (s, current_input) := st.1.get st.2
      match current_input with
      | none => .error .ub
      | some c =>
        if c = hash then
          return ((s.ignoreLine, some c), false)
        else if !(← isspaceChar c) then
          return ((s.setFail, some c), false)
        else
          return ((s, some c), false))
    (s, (none : Option UInt8))
  let s := if s.eof then { s with fail := false } else s
  return (s, s.good)

/-- Value of a sequence of decimal digits. -/
def digitsValue (ds : Text) : Nat := ds.foldl (fun v d => 10 * v + (d.toNat - 48)) 0

/-- `std::stoul(s)`: `strtoul` with base 10. Skips whitespace, accepts a sign, takes digits as long as there are any, ignores the
rest. The value of a number with minus is negated modulo `2^64`. -/
def stoul (s : Text) : M UInt64 :=
  let s := s.dropWhile isSpace
  let neg := s.headD 0 == 45
  let s := if neg || s.headD 0 == 43 then s.tail else s
  let digits := s.takeWhile isDigit
  if digits.isEmpty then .error (.exc (.invalidArgument "stoul"))
  else if 18446744073709551616 ≤ digitsValue digits then .error (.exc .outOfRange)
  else
    let v := UInt64.ofNat (digitsValue digits)
    .ok (if neg then 0 - v else v)

/-- `try { … } catch (invalid_argument&) { … }`: `none` if `std::invalid_argument` was thrown. -/
def catchInvalid {α : Type} (m : M α) : M (Option α) :=
  match m with
  | .ok a => .ok (some a)
  | .error (.exc (.invalidArgument _)) => .ok none
  | .error e => .error e

/-- `PGM_IO::MAX_VALUE_LIMIT`, `pgm_io.hpp:90`. -/
def MAX_VALUE_LIMIT : UInt64 := 65536
/-- `PGM_IO::MAX_NUMBERS_PER_ROW`, `pgm_io.hpp:119`: `70 / (1 + 5)`. -/
def MAX_NUMBERS_PER_ROW : UInt64 := 70 / (1 + 5)
/-- `PGM_IO::FORMAT_CODE`, `pgm_io.hpp:124`: `P2`. -/
def FORMAT_CODE : Text := [80, 50]

/-- `std::vector<ULONG>().resize(n)` with memory for `limit` elements. -/
def resizeEmpty (limit : Nat) (n : UInt64) : M (Array UInt64) :=
  if 1152921504606846975 < n.toNat then .error (.exc .lengthError)
  else if limit < n.toNat then .error (.exc .badAlloc)
  else .ok (Array.replicate n.toNat 0)

/-- `stoul(PGM_IO::read_pgm_instruction(in))` together with the handler of `invalid_argument` that sets `failbit`,
`pgm_io.cpp:160-168,181-190`; `none` if the handler was executed. -/
def readNumber (s : IStream) : M (IStream × Option UInt64) := do
  let (s, t) ← readPgmInstruction s
  match catchInvalid (stoul t) with
  | .error e => .error e
  | .ok none => .ok (s.setFail, none)
  | .ok (some v) => .ok (s, some v)

/-- The header, `pgm_io.cpp:158-168`; `none` if a number is refused. -/
def readHeader (s : IStream) : M (IStream × Option (UInt64 × UInt64 × UInt64)) := do
  let (s, width) ← readNumber s
  match width with
  | none => return (s, none)
  | some width =>
    let (s, height) ← readNumber s
    match height with
    | none => return (s, none)
    | some height =>
      let (s, max_value) ← readNumber s
      match max_value with
      | none => return (s, none)
      | some max_value => return (s, some (width, height, max_value))

/-- Variables of the loops over pixels: the stream, the data, and whether the function has returned from inside of the loop. -/
abbrev ReadState := IStream × Array UInt64 × Bool

/-- The body of the inner loop, `pgm_io.cpp:181-190`. -/
def readPixel (image : Image) (y x : UInt64) (st : ReadState) : M (ReadState × Bool) := do
  let (s, v) ← readNumber st.1
  match v with
  | none => return ((s, st.2.1, true), true)
  | some v =>
    let data ← wr st.2.1 (pixelIndex image ⟨x, y⟩) v
    return ((s, data, false), false)

/-- The inner loop, `pgm_io.cpp:179-191`. -/
def readRow (image : Image) (y : UInt64) (st : ReadState) : M ReadState :=
  cfor image.width.toNat 0 (fun x => decide (x < image.width)) inc (readPixel image y) st

/-- The loop over rows, `pgm_io.cpp:177-192`. -/
def readData (s : IStream) (image : Image) : M ReadState :=
  cfor image.height.toNat 0 (fun y => decide (y < image.height)) inc
    (fun y st =>
      match readRow image y st with
      | .error e => .error e
      | .ok st => .ok (st, st.2.2))
    (s, image.data, false)

/-- `operator>>`, `pgm_io.cpp:146-199`: the stream and the image held by the reader. `limit` is the number of elements for which
memory can be allocated. -/
def readPgm (limit : Nat) (held : Option Image) (s : IStream) : M (IStream × Option Image) := do
  let (s, format_code) ← readPgmInstruction s
  if format_code ≠ FORMAT_CODE then
    return (s.setFail, held)
  let (s, header) ← readHeader s
  match header with
  | none => return (s, held)
  | some (width, height, max_value) =>
    if max_value > MAX_VALUE_LIMIT then
      return (s.setFail, held)
    let data ← resizeEmpty limit (width * height)
    let (s, data, returned) ← readData s ⟨width, height, max_value, data⟩
    if returned then
      return (s, held)
    let (s, _) ← checkFileEnd s
    return (s, some ⟨width, height, max_value, data⟩)

/-- Decimal digits of a number, as `std::ostream` prints `ULONG`. The first argument bounds the number of digits. -/
def decimalAux : Nat → Nat → Text → Text
  | 0, _, acc => acc
  | fuel + 1, n, acc =>
    let acc := UInt8.ofNat (48 + n % 10) :: acc
    if n / 10 = 0 then acc else decimalAux fuel (n / 10) acc

/-- `out << v` for `ULONG v` (at most 20 digits). -/
def decimal (v : UInt64) : Text := decimalAux 20 v.toNat []

/-- The separator after the number in the column `x`, `pgm_io.cpp:126-139`. -/
def separator (width x : UInt64) : Text :=
  if x = 0 ∨ (x + 1) % MAX_NUMBERS_PER_ROW ≠ 0 then
    if x + 1 < width then [32] else []
  else
    if x + 1 < width then [newline] else []

/-- A row, `pgm_io.cpp:123-140`. -/
def writeRow (image : Image) (y : UInt64) (out : Text) : M Text :=
  cfor image.width.toNat 0 (fun x => decide (x < image.width)) inc
    (fun x out =>
      match rd image.data (pixelIndex image ⟨x, y⟩) with
      | .error e => .error e
      | .ok v => .ok (out ++ decimal v ++ separator image.width x, false))
    out

/-- `operator<<`, `pgm_io.cpp:111-144`: the text that is written. -/
def writePgm (held : Option Image) : M Text := do
  match held with
  | none => return []
  | some image =>
    if !(← imageValid image) then
      return []
    let out := FORMAT_CODE ++ [newline]
    let out := out ++ decimal image.width ++ [32] ++ decimal image.height ++ [newline]
    let out := out ++ decimal image.maxValue ++ [newline]
    cfor image.height.toNat 0 (fun y => decide (y < image.height)) inc
      (fun y out =>
        match writeRow image y out with
        | .error e => .error e
        | .ok out => .ok (out ++ [newline], false))
      out

end SP
