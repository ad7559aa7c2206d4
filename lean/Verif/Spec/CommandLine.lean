import Verif.Model.CommandLine
/-!
# What a command line means

A grammar of command lines; it is independent of how they are parsed.
-/
namespace SP

/-- The names of options, as the help of the program shows them (`main.cpp:36-56`). -/
def Opt.documented : Opt → String × Char
  | .help => ("help", 'h')
  | .parallel => ("parallel", 'p')
  | .left => ("left-image", 'l')
  | .right => ("right-image", 'r')
  | .output => ("output-image", 'o')
  | .levels => ("disparity-levels", 'd')
  | .smoothness => ("smoothness", 's')
  | .cleanness => ("cleanness", 'c')

/-- The option may be named so after two dashes: by the beginning of its long name or, after a further dash, by its letter. -/
def Opt.Named (o : Opt) (key : Text) : Prop := key ≠ [] ∧ (key <+: o.long ∨ key = [dash, o.short])

/-- A word that does not look like an option; a dash alone does not. -/
def NotOption (w : Text) : Prop := w.head? ≠ some dash ∨ w = [dash]

/-- The word may be a separate value of an option: it is not an option, or the library does not care, unless it is `--name=`. -/
def Library.Accepts (lib : Library) (w : Text) : Prop :=
  NotOption w ∨ w = [dash, dash] ∨
    (lib.refuses w = false ∧ ¬ ∃ name, equalsSign ∉ name ∧ w = dash :: dash :: (name ++ [equalsSign]))

/-- `n` times the option without value. -/
def helps (n : Nat) : List (Opt × Text) := List.replicate n (.help, [])

/-- A dash and `n` times the letter of the option without value. -/
def helpLetters (n : Nat) : Text := dash :: List.replicate n Opt.help.short

/-- Words of the command line that belong together, and which values of which options they give. -/
inductive Writes (lib : Library) : List (Opt × Text) → List Text → Prop
  /-- `--name value` -/
  | long {o key value} : o ≠ .help → o.Named key → lib.Accepts value → Writes lib [(o, value)] [dash :: dash :: key, value]
  /-- `--name=value` -/
  | longEqual {o key value} : o ≠ .help → o.Named key → value ≠ [] →
      Writes lib [(o, value)] [dash :: dash :: (key ++ equalsSign :: value)]
  /-- `--help` -/
  | longHelp {key} : Opt.help.Named key → Writes lib (helps 1) [dash :: dash :: key]
  /-- `-l value`, `-hl value` -/
  | short {o value} (n : Nat) : o ≠ .help → lib.Accepts value → Writes lib (helps n ++ [(o, value)]) [helpLetters n ++ [o.short], value]
  /-- `-lvalue`, `-hlvalue` -/
  | shortJoined {o value} (n : Nat) : o ≠ .help → value ≠ [] →
      Writes lib (helps n ++ [(o, value)]) [helpLetters n ++ o.short :: value]
  /-- `-h`, `-hh` -/
  | shortHelp (n : Nat) : Writes lib (helps (n + 1)) [helpLetters (n + 1)]
  /-- a word that is not an option is ignored -/
  | ignored {w} : NotOption w → Writes lib [] [w]
  /-- so is `--=value` -/
  | nameless {value} : value ≠ [] → Writes lib [] [dash :: dash :: equalsSign :: value]

/-- The command line gives these values to these options. -/
inductive Line (lib : Library) : List (Opt × Text) → List Text → Prop
  | nil : Line lib [] []
  /-- everything after `--` is ignored -/
  | stop {rest} : Line lib [] ([dash, dash] :: rest)
  | cons {l l' ws ws'} : Writes lib l ws → Line lib l' ws' → Line lib (l ++ l') (ws ++ ws')

/-- The value of an option, if it is given. -/
def Options.value (options : Options) : Opt → Option Text
  | .help => if options.help then some [] else none
  | .parallel => options.parallel
  | .left => options.leftImage
  | .right => options.rightImage
  | .output => options.outputImage
  | .levels => options.disparityLevels
  | .smoothness => options.smoothness
  | .cleanness => options.cleanness

end SP
