import Mathlib.Data.Int.Log
import Mathlib.Data.Rat.Floor
/-!
# Rounding to the nearest number with a given number of digits
-/
namespace SP

/-- The nearest integer to a nonnegative number; the even one of two. -/
def roundEven (q : ℚ) : ℤ :=
  if q - ⌊q⌋ < 1 / 2 then ⌊q⌋
  else if 1 / 2 < q - ⌊q⌋ then ⌊q⌋ + 1
  else if ⌊q⌋ % 2 = 0 then ⌊q⌋ else ⌊q⌋ + 1

/-- The exponent of the last of `p` significant digits of a positive number; there are less digits if it would be smaller than `emin`. -/
def lastDigit (p : ℕ) (emin : ℤ) (v : ℚ) : ℤ := max (Int.log 2 v + 1 - p) emin

/-- The nearest nonnegative number with `p` significant digits, exponent unbounded from above. -/
def nearest (p : ℕ) (emin : ℤ) (v : ℚ) : ℚ := roundEven (v / 2 ^ lastDigit p emin v) * 2 ^ lastDigit p emin v

end SP
