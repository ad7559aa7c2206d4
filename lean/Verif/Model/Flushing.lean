import Verif.Model.Double
/-!
# Devices without subnormal numbers

OpenCL leaves it to a device whether it computes with subnormal numbers of `float` (`CL_FP_DENORM`): operands and results that are subnormal may be
replaced by zeros. The program takes the default device and does not ask (`gpu_csp.cpp:64`), and nothing is said about it in options of the compiler
(`compile_cl.cpp:29-33`). Numbers of the device come from conversions to `cl_float` (`gpu_csp.cpp:42-56`, `87-89`) and from integers.
Which of them are replaced, and what the sign of the zero is, is a parameter here.
-/
namespace SP
open FloatOps

namespace Ieee
variable {fmt : Format}

/-- Numbers with fewer digits than others. -/
def Subnormal : Ieee fmt → Prop
  | fin _ m => 0 < m.1 ∧ m.1 < 2 ^ (fmt.least + fmt.digits - 1)
  | _ => False

/-- The second number is the first one, or a zero instead of it. -/
def Flushed (x y : Ieee fmt) : Prop := y = x ∨ x.Subnormal ∧ ∃ s, y = signedZero s

end Ieee

/-- An arithmetic that may replace subnormal numbers by zeros before and after each operation. -/
structure Flush (fmt : Format) where
  add : Ieee fmt → Ieee fmt → Ieee fmt
  sub : Ieee fmt → Ieee fmt → Ieee fmt
  mul : Ieee fmt → Ieee fmt → Ieee fmt
  le : Ieee fmt → Ieee fmt → Bool
  lt : Ieee fmt → Ieee fmt → Bool
  eq : Ieee fmt → Ieee fmt → Bool
  add_flushed : ∀ x y : Ieee fmt, ∃ x' y' : Ieee fmt, x.Flushed x' ∧ y.Flushed y' ∧ (x'.plus y').Flushed (add x y)
  sub_flushed : ∀ x y : Ieee fmt, ∃ x' y' : Ieee fmt, x.Flushed x' ∧ y.Flushed y' ∧ (x'.plus y'.opposite).Flushed (sub x y)
  mul_flushed : ∀ x y : Ieee fmt, ∃ x' y' : Ieee fmt, x.Flushed x' ∧ y.Flushed y' ∧ (x'.times y').Flushed (mul x y)
  le_flushed : ∀ x y : Ieee fmt, ∃ x' y' : Ieee fmt, x.Flushed x' ∧ y.Flushed y' ∧ le x y = x'.atMost y'
  lt_flushed : ∀ x y : Ieee fmt, ∃ x' y' : Ieee fmt, x.Flushed x' ∧ y.Flushed y' ∧ lt x y = x'.lessThan y'
  eq_flushed : ∀ x y : Ieee fmt, ∃ x' y' : Ieee fmt, x.Flushed x' ∧ y.Flushed y' ∧ eq x y = x'.same y'

/-- Numbers of such an arithmetic. -/
structure Flushing {fmt : Format} (flush : Flush fmt) where
  value : Ieee fmt
  deriving DecidableEq

namespace Flushing
variable {fmt : Format} {flush : Flush fmt}

instance : FloatOps (Flushing flush) where
  add x y := ⟨flush.add x.value y.value⟩
  sub x y := ⟨flush.sub x.value y.value⟩
  mul x y := ⟨flush.mul x.value y.value⟩
  ofNat n := ⟨ofNat n⟩
  minusOne := ⟨minusOne⟩
  epsilon := ⟨epsilon⟩
  le x y := flush.le x.value y.value
  lt x y := flush.lt x.value y.value
  eq x y := flush.eq x.value y.value

/-- Conversions of numbers of the processor; results may be replaced too. -/
def Converts {fmt' : Format} (conv : Ieee fmt' → Flushing flush) : Prop := ∀ x, (Ieee.convert x : Ieee fmt).Flushed (conv x).value

end Flushing

/-- Subnormal numbers are kept. -/
def Flush.never (fmt : Format) : Flush fmt where
  add := Ieee.plus
  sub x y := x.plus y.opposite
  mul := Ieee.times
  le := Ieee.atMost
  lt := Ieee.lessThan
  eq := Ieee.same
  add_flushed x y := ⟨x, y, .inl rfl, .inl rfl, .inl rfl⟩
  sub_flushed x y := ⟨x, y, .inl rfl, .inl rfl, .inl rfl⟩
  mul_flushed x y := ⟨x, y, .inl rfl, .inl rfl, .inl rfl⟩
  le_flushed x y := ⟨x, y, .inl rfl, .inl rfl, rfl⟩
  lt_flushed x y := ⟨x, y, .inl rfl, .inl rfl, rfl⟩
  eq_flushed x y := ⟨x, y, .inl rfl, .inl rfl, rfl⟩

namespace Ieee
variable {fmt : Format}

/-- The number, or the zero of the same sign if it is subnormal. -/
def flushed : Ieee fmt → Ieee fmt
  | nan => nan
  | inf s => inf s
  | fin s m => if 0 < m.1 ∧ m.1 < 2 ^ (fmt.least + fmt.digits - 1) then signedZero s else fin s m

theorem flushed_flushed (x : Ieee fmt) : x.Flushed x.flushed := by
  rcases x with _ | s | ⟨s, m⟩
  · exact .inl rfl
  · exact .inl rfl
  · unfold flushed
    simp only
    split
    · rename_i h
      exact .inr ⟨h, s, rfl⟩
    · exact .inl rfl

end Ieee

/-- There are no subnormal numbers, as in `-cl-denorms-are-zero` and `--ftz=true`. -/
def Flush.always (fmt : Format) : Flush fmt where
  add x y := (x.flushed.plus y.flushed).flushed
  sub x y := (x.flushed.plus y.flushed.opposite).flushed
  mul x y := (x.flushed.times y.flushed).flushed
  le x y := x.flushed.atMost y.flushed
  lt x y := x.flushed.lessThan y.flushed
  eq x y := x.flushed.same y.flushed
  add_flushed x y := ⟨_, _, x.flushed_flushed, y.flushed_flushed, Ieee.flushed_flushed _⟩
  sub_flushed x y := ⟨_, _, x.flushed_flushed, y.flushed_flushed, Ieee.flushed_flushed _⟩
  mul_flushed x y := ⟨_, _, x.flushed_flushed, y.flushed_flushed, Ieee.flushed_flushed _⟩
  le_flushed x y := ⟨_, _, x.flushed_flushed, y.flushed_flushed, rfl⟩
  lt_flushed x y := ⟨_, _, x.flushed_flushed, y.flushed_flushed, rfl⟩
  eq_flushed x y := ⟨_, _, x.flushed_flushed, y.flushed_flushed, rfl⟩

end SP
