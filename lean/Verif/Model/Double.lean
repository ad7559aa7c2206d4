import Verif.Model.Basic
import Verif.Lemmas.Nearest
/-!
# `double` and `float` (`FLOAT`, `include/types.hpp:65-107`)

Binary numbers of IEEE 754 with rounding to the nearest (ties to even), signed zeros, infinities and NaN (payloads of NaN aside). This is
what `double` is with GCC and Clang on x86-64 and AArch64 unless the compiler is told to relax it (`-ffast-math`, which is not set in
`CMakeLists.txt`) or contracts `a * b + c` (see `Model/Contracted.lean`).
-/
namespace SP
open FloatOps

/-- A format of numbers: how many significant digits, the exponent from which numbers are too large, and that of the least digit. -/
structure Format where
  digits : ℕ
  top : ℕ
  least : ℤ
  digits_pos : 0 < digits
  digits_lt : digits < top
  least_le : least ≤ 1 - digits

namespace Format
variable (fmt : Format)

/-- Rounding of absolute values if it does not overflow. -/
def nearest : ℚ → ℚ := SP.nearest fmt.digits fmt.least

/-- The least absolute value that is too large. -/
def overflow : ℚ := 2 ^ fmt.top

theorem overflow_pos : 0 < fmt.overflow := pow_pos (by norm_num) _

/-- Absolute values of finite numbers. -/
def Magnitude : Type := { m : ℚ // 0 ≤ m ∧ m < fmt.overflow ∧ fmt.nearest m = m }

instance : DecidableEq fmt.Magnitude := inferInstanceAs (DecidableEq { m : ℚ // 0 ≤ m ∧ m < fmt.overflow ∧ fmt.nearest m = m })

/-- `double` -/
def binary64 : Format := ⟨53, 1024, -1074, by norm_num, by norm_num, by norm_num⟩

/-- `float` -/
def binary32 : Format := ⟨24, 128, -149, by norm_num, by norm_num, by norm_num⟩

end Format

/-- Numbers of a format. Zero and negative zero are `fin false 0` and `fin true 0`. -/
inductive Ieee (fmt : Format) where
  | nan
  | inf (neg : Bool)
  | fin (neg : Bool) (magnitude : fmt.Magnitude)
  deriving DecidableEq

/-- `double` -/
abbrev Double := Ieee .binary64

/-- `float` -/
abbrev Single := Ieee .binary32

namespace Ieee
variable {fmt : Format}

/-- Zero and negative zero. -/
def signedZero (neg : Bool) : Ieee fmt := fin neg ⟨0, le_rfl, fmt.overflow_pos, nearest_zero⟩

/-- The result of an operation with the given sign and the absolute value of the exact result. -/
def rounded (neg : Bool) (exact : ℚ) : Ieee fmt :=
  if h : fmt.nearest |exact| < fmt.overflow then
    fin neg ⟨fmt.nearest |exact|, nearest_nonneg (abs_nonneg _), h, nearest_idem fmt.digits_pos (abs_nonneg _)⟩
  else inf neg

/-- The number represented by a sign and an absolute value. -/
def signed (neg : Bool) (m : fmt.Magnitude) : ℚ := if neg then -m.1 else m.1

/-- `-x` -/
def opposite : Ieee fmt → Ieee fmt
  | nan => nan
  | inf s => inf (!s)
  | fin s m => fin (!s) m

/-- `x + y` -/
def plus : Ieee fmt → Ieee fmt → Ieee fmt
  | nan, _ => nan
  | _, nan => nan
  | inf s, inf t => if s = t then inf s else nan
  | inf s, fin _ _ => inf s
  | fin _ _, inf t => inf t
  | fin s m, fin t n =>
    if signed s m + signed t n = 0 then signedZero (s && t)
    else rounded (decide (signed s m + signed t n < 0)) (signed s m + signed t n)

/-- `x * y` -/
def times : Ieee fmt → Ieee fmt → Ieee fmt
  | nan, _ => nan
  | _, nan => nan
  | inf s, inf t => inf (s ^^ t)
  | inf s, fin t n => if n.1 = 0 then nan else inf (s ^^ t)
  | fin s m, inf t => if m.1 = 0 then nan else inf (s ^^ t)
  | fin s m, fin t n => rounded (s ^^ t) (m.1 * n.1)

/-- `x <= y`; false if one of them is NaN. -/
def atMost : Ieee fmt → Ieee fmt → Bool
  | nan, _ => false
  | _, nan => false
  | inf true, _ => true
  | _, inf false => true
  | inf false, _ => false
  | _, inf true => false
  | fin s m, fin t n => decide (signed s m ≤ signed t n)

/-- `x < y` -/
def lessThan : Ieee fmt → Ieee fmt → Bool
  | nan, _ => false
  | _, nan => false
  | _, inf true => false
  | inf true, _ => true
  | inf false, _ => false
  | _, inf false => true
  | fin s m, fin t n => decide (signed s m < signed t n)

/-- `x == y` -/
def same : Ieee fmt → Ieee fmt → Bool
  | inf s, inf t => s == t
  | fin s m, fin t n => decide (signed s m = signed t n)
  | _, _ => false

instance : FloatOps (Ieee fmt) where
  add := plus
  sub x y := plus x (opposite y)
  mul := times
  ofNat n := rounded false n
  minusOne := rounded true 1
  epsilon := rounded false (2 ^ (1 - fmt.digits : ℤ))
  le := atMost
  lt := lessThan
  eq := same

/-- Conversion to another format, `static_cast<float>` of `double` and the other way round. -/
def convert {fmt' : Format} : Ieee fmt → Ieee fmt'
  | nan => nan
  | inf s => inf s
  | fin s m => rounded s m.1

end Ieee
end SP
