import Verif.Model.Contracted
/-!
# What IEEE 754 says

Numbers of a format, rounding to the nearest with ties to even (`roundTiesToEven`, 4.3.1 of the standard), overflow, signs of zeros and comparisons,
said without the functions that compute them in the model.
-/
namespace SP

/-- An absolute value that has the number of digits of the format, whatever large it is. -/
def Format.Representable (fmt : Format) (x : ℚ) : Prop := ∃ (n : ℕ) (e : ℤ), n < 2 ^ fmt.digits ∧ fmt.least ≤ e ∧ x = n * 2 ^ e

/-- Of all numbers with that many digits, `y` is the nearest one to `x`. If there is another one, then they are neighbors, and the significand of `y`
(measured in their difference) is even. -/
structure Format.Nearest (fmt : Format) (x y : ℚ) : Prop where
  representable : fmt.Representable y
  nearest : ∀ z, fmt.Representable z → |x - y| ≤ |x - z|
  even : ∀ z, fmt.Representable z → z ≠ y → |x - y| = |x - z| → ∃ n : ℤ, y = 2 * n * |y - z|

/-- Exact results with such absolute values are too large. -/
def Format.tooLarge (fmt : Format) : ℚ := 2 ^ fmt.top - 2 ^ ((fmt.top : ℤ) - fmt.digits - 1)

/-- The result of an operation with the given sign and the exact absolute value. -/
def Ieee.Correct {fmt : Format} (neg : Bool) (exact : ℚ) (v : Ieee fmt) : Prop :=
  (exact < fmt.tooLarge ∧ ∃ m, v = .fin neg m ∧ fmt.Nearest exact m.1) ∨ (fmt.tooLarge ≤ exact ∧ v = .inf neg)

/-- Numbers with infinities. -/
def Ieee.extended {fmt : Format} : Ieee fmt → Option (WithBot (WithTop ℚ))
  | .nan => none
  | .inf true => some ⊥
  | .inf false => some ((⊤ : WithTop ℚ) : WithBot (WithTop ℚ))
  | .fin neg m => some ((((if neg then -m.1 else m.1 : ℚ)) : WithTop ℚ) : WithBot (WithTop ℚ))

end SP
