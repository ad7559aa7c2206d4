import Verif.Model.Pgm
import Mathlib.Data.List.Forall2
/-!
# Specification of the plain PGM format: instructions, separators, numbers, lines
-/
namespace SP

/-- Where in a text we are: between instructions, in a comment, or in an instruction (its beginning is kept). -/
inductive LexState where
  | between
  | comment
  | instruction (beginning : Text)

/-- Instructions of a text: maximal sequences of non-whitespace bytes, except that a sequence beginning with `#` begins a comment,
which lasts up to the end of the line. -/
def lex : LexState → Text → List Text
  | .between, [] => []
  | .between, c :: s =>
    if isSpace c then lex .between s else if c = hash then lex .comment s else lex (.instruction [c]) s
  | .comment, [] => []
  | .comment, c :: s => if c = newline then lex .between s else lex .comment s
  | .instruction t, [] => [t]
  | .instruction t, c :: s => if isSpace c then t :: lex .between s else lex (.instruction (t ++ [c])) s

/-- Instructions of a text. -/
def instructions (s : Text) : List Text := lex .between s

/-- What an instruction may be: not empty, no whitespace inside, not a comment. -/
def IsInstruction (t : Text) : Prop := t ≠ [] ∧ (∀ c ∈ t, isSpace c = false) ∧ t.head? ≠ some hash

/-- A mix of whitespace and complete comments. -/
inductive Blank : Text → Prop
  | nil : Blank []
  | space {c : UInt8} {s : Text} (hc : isSpace c = true) (h : Blank s) : Blank (c :: s)
  | comment {b s : Text} (hb : newline ∉ b) (h : Blank s) : Blank (hash :: (b ++ newline :: s))

/-- A mix of whitespace and comments at the end of a text, where the last comment may be not ended. -/
def FinalBlank (s : Text) : Prop := Blank s ∨ ∃ a b, Blank a ∧ newline ∉ b ∧ s = a ++ hash :: b

/-- `Layout ts s`: the text `s` consists of the instructions `ts` separated by mixes of whitespace and comments, where an
instruction is followed by whitespace or by the end of the text (not directly by a comment). -/
inductive Layout : List Text → Text → Prop
  | blank {s : Text} (h : FinalBlank s) : Layout [] s
  | last {t : Text} (ht : IsInstruction t) : Layout [t] t
  | cons {t : Text} {c : UInt8} {ts : List Text} {s : Text} (ht : IsInstruction t) (hc : isSpace c = true) (h : Layout ts s) :
      Layout (t :: ts) (t ++ c :: s)
  | lead {b : Text} {ts : List Text} {s : Text} (hb : Blank b) (h : Layout ts s) : Layout ts (b ++ s)

/-- Instructions separated by single spaces. -/
def plain (ts : List Text) : Text := (ts.map fun t => t ++ [32]).flatten

/-- A text that begins like a number: an optional sign and at least one digit. -/
def LikeNumber (t : Text) : Prop :=
  ∃ sign d r, t = sign ++ d :: r ∧ sign ∈ ([[], [43], [45]] : List Text) ∧ isDigit d = true

/-- The number an instruction begins with: an optional sign and the longest sequence of digits; fits 64 bits. -/
def NumberOf (t : Text) (v : UInt64) : Prop :=
  ∃ sign ds r, t = sign ++ ds ++ r ∧ sign ∈ ([[], [43], [45]] : List Text) ∧ ds ≠ [] ∧ (∀ d ∈ ds, isDigit d = true) ∧
    (∀ d, r.head? = some d → isDigit d = false) ∧ digitsValue ds < 18446744073709551616 ∧
    v = if sign = [45] then 0 - UInt64.ofNat (digitsValue ds) else UInt64.ofNat (digitsValue ds)

/-- An instruction begins with a number that does not fit 64 bits. -/
def TooLarge (t : Text) : Prop :=
  ∃ sign ds r, t = sign ++ ds ++ r ∧ sign ∈ ([[], [43], [45]] : List Text) ∧ ds ≠ [] ∧ (∀ d ∈ ds, isDigit d = true) ∧
    (∀ d, r.head? = some d → isDigit d = false) ∧ 18446744073709551616 ≤ digitsValue ds

/-- The instructions are a plain PGM image: `P2`, width, height, the maximal value and exactly as many intensities as there are
pixels. -/
def PgmOf (ts : List Text) (im : Image) : Prop :=
  ∃ a b c ds, ts = FORMAT_CODE :: a :: b :: c :: ds ∧ NumberOf a im.width ∧ NumberOf b im.height ∧ NumberOf c im.maxValue ∧
    im.maxValue ≤ 65536 ∧ im.data.size = im.width.toNat * im.height.toNat ∧ List.Forall₂ NumberOf ds im.data.toList

/-- The instructions begin with a header. -/
def HeaderOf (ts : List Text) (w h m : UInt64) : Prop :=
  ∃ a b c ds, ts = FORMAT_CODE :: a :: b :: c :: ds ∧ NumberOf a w ∧ NumberOf b h ∧ NumberOf c m

/-- What makes a file not an image, apart from superfluous instructions: another magic; a number of the header is missing or does
not begin like a number; the maximal value is too large; an intensity is missing or does not begin like a number. -/
def Malformed (ts : List Text) : Prop :=
  ts.head? ≠ some FORMAT_CODE ∨
  (ts.length < 4 ∨ ∃ t ∈ (ts.drop 1).take 3, ¬ LikeNumber t) ∨
  (∃ w h m, HeaderOf ts w h m ∧ 65536 < m) ∨
  ∃ w h m, HeaderOf ts w h m ∧
    (ts.length < 4 + w.toNat * h.toNat ∨ ∃ t ∈ (ts.drop 4).take (w.toNat * h.toNat), ¬ LikeNumber t)

/-- Bytes of a string. -/
def bytes (s : String) : Text := s.toByteArray.data.toList

/-- A text of ASCII characters. -/
def Ascii (s : Text) : Prop := ∀ c ∈ s, c < 128

/-- Lines of a text. -/
def lines : Text → List Text
  | [] => [[]]
  | c :: s =>
    if c = newline then [] :: lines s
    else
      match lines s with
      | [] => [[c]]
      | l :: ls => (c :: l) :: ls

end SP
