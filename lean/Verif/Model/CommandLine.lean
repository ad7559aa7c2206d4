import Verif.Model.Main
/-!
# `lib/main.cpp:33-76`: parsing of the command line

`boost::program_options` is not a part of the repository. What is modelled is `parse_command_line` in its default style (`unix_style`) and
`store`, as documented and as implemented in `cmdline.cpp` and `variables_map.cpp` of the library, for the options the program
describes. A library may refuse a word that looks like an option as a separate value (`-l -r`); versions differ in which words they
refuse, so `Library` leaves it open.
-/
namespace SP
open FloatOps
variable {F : Type} [FloatOps F]

/-- The options described in `main.cpp:35-59`. -/
inductive Opt where
  | help | parallel | left | right | output | levels | smoothness | cleanness
  deriving DecidableEq, Repr

/-- All of them in the order of `main.cpp:36-58`. -/
def Opt.all : List Opt := [.help, .parallel, .left, .right, .output, .levels, .smoothness, .cleanness]

/-- The long name, `main.cpp:36-56`. -/
def Opt.long : Opt → Text
  | .help => [104, 101, 108, 112]
  | .parallel => [112, 97, 114, 97, 108, 108, 101, 108]
  | .left => [108, 101, 102, 116, 45, 105, 109, 97, 103, 101]
  | .right => [114, 105, 103, 104, 116, 45, 105, 109, 97, 103, 101]
  | .output => [111, 117, 116, 112, 117, 116, 45, 105, 109, 97, 103, 101]
  | .levels => [100, 105, 115, 112, 97, 114, 105, 116, 121, 45, 108, 101, 118, 101, 108, 115]
  | .smoothness => [115, 109, 111, 111, 116, 104, 110, 101, 115, 115]
  | .cleanness => [99, 108, 101, 97, 110, 110, 101, 115, 115]

/-- The short name, `main.cpp:36-56`. -/
def Opt.short : Opt → UInt8
  | .help => 104
  | .parallel => 112
  | .left => 108
  | .right => 114
  | .output => 111
  | .levels => 100
  | .smoothness => 115
  | .cleanness => 99

/-- `value<std::string>()` takes one value, an option without it takes none. -/
def Opt.takesValue : Opt → Bool
  | .help => false
  | _ => true

/-- The character `-`. -/
def dash : UInt8 := 45

/-- The character `=`. -/
def equalsSign : UInt8 := 61

/-- What depends on the version of the library: which words that look like options are refused as separate values. -/
structure Library where
  refuses : Text → Bool

/-- `options_description::find_nothrow`: the option with this long name, or with this short name written with a dash; with guessing, the
only option whose long name begins so. `none` also if there are several ones. -/
def Opt.find (guess : Bool) (key : Text) : Option Opt :=
  match Opt.all.filter fun o => o.long = key ∨ [dash, o.short] = key with
  | o :: _ => some o
  | [] =>
    if guess then
      match Opt.all.filter fun o => key.isPrefixOf o.long with
      | [o] => some o
      | _ => none
    else none

/-- How a word looks like, `parse_long_option`, `parse_short_option`, `parse_terminator`. -/
inductive Word where
  /-- `helps` options without value, and an option that has the value `adjacent` if it is given in the same word -/
  | option (helps : Nat) (key : Text) (adjacent : Option Text)
  /-- `--name=` -/
  | emptyValue
  /-- `--` -/
  | terminator
  /-- not an option -/
  | plain
  deriving DecidableEq, Repr

/-- `parse_short_option` for the characters `c` and `adjacent` after the dash. An option without value may be followed by further ones. -/
def shortWord (helps : Nat) (c : UInt8) : Text → Word
  | [] => .option helps [dash, c] none
  | a :: adjacent =>
    match Opt.find false [dash, c] with
    | some o => if o.takesValue then .option helps [dash, c] (some (a :: adjacent)) else shortWord (helps + 1) a adjacent
    | none => .option helps [dash, c] (some (a :: adjacent))

/-- The parsers of words in their order, `cmdline::run`. -/
def word : Text → Word
  | 45 :: 45 :: [] => .terminator
  | 45 :: 45 :: name =>
    match name.dropWhile (· ≠ equalsSign) with
    | [] => .option 0 name none
    | [_] => .emptyValue
    | _ :: adjacent => .option 0 (name.takeWhile (· ≠ equalsSign)) (some adjacent)
  | 45 :: c :: adjacent => shortWord 0 c adjacent
  | _ => .plain

/-- `cmdline::finish_option`: whether a separate word is not accepted as a value. -/
def Library.bad (lib : Library) (t : Text) : Bool :=
  match word t with
  | .option _ _ _ => lib.refuses t
  | .emptyValue => true
  | _ => false

/-- `parse_command_line`: the options and their values in the order of the command line; `none` for an exception. -/
def parseWords (lib : Library) : List Text → Option (List (Opt × Text))
  | [] => some []
  | t :: rest =>
    match word t with
    | .terminator => some []
    | .plain => parseWords lib rest
    | .emptyValue => none
    | .option _ [] _ => parseWords lib rest
    | .option helps key adjacent =>
      match Opt.find true key with
      | none => none
      | some o =>
        let before := List.replicate helps (Opt.help, [])
        if o.takesValue then
          match adjacent with
          | some value => (parseWords lib rest).map fun r => before ++ (o, value) :: r
          | none =>
            match rest with
            | [] => none
            | value :: rest => if lib.bad value then none else (parseWords lib rest).map fun r => before ++ (o, value) :: r
        else
          match adjacent with
          | some _ => none
          | none => (parseWords lib rest).map fun r => before ++ (o, []) :: r

/-- `vm.count`. -/
def Options.given (options : Options) : Opt → Bool
  | .help => options.help
  | .parallel => options.parallel.isSome
  | .left => options.leftImage.isSome
  | .right => options.rightImage.isSome
  | .output => options.outputImage.isSome
  | .levels => options.disparityLevels.isSome
  | .smoothness => options.smoothness.isSome
  | .cleanness => options.cleanness.isSome

/-- The value is stored in the map. -/
def Options.set (options : Options) (o : Opt) (value : Text) : Options :=
  match o with
  | .help => { options with help := true }
  | .parallel => { options with parallel := some value }
  | .left => { options with leftImage := some value }
  | .right => { options with rightImage := some value }
  | .output => { options with outputImage := some value }
  | .levels => { options with disparityLevels := some value }
  | .smoothness => { options with smoothness := some value }
  | .cleanness => { options with cleanness := some value }

/-- `store`: `multiple_occurrences` is thrown if an option has got a value already. -/
def store : List (Opt × Text) → Options → CommandLine
  | [], options => .parsed options
  | (o, value) :: rest, options => if options.given o then .repeated else store rest (options.set o value)

/-- `main.cpp:61-76`, for the words after the name of the program. -/
def commandLine (lib : Library) (args : List Text) : CommandLine :=
  match parseWords lib args with
  | none => .wrong
  | some l => store l {}

/-- The whole program. -/
def runProgram (world : World F) (lib : Library) (args : List Text) : M Outcome := program world (commandLine lib args)

end SP
