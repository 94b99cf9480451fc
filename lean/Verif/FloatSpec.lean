import Verif.Spec
import Mathlib.Algebra.Order.Field.Power
import Mathlib.Algebra.Order.Floor.Ring

/-!
# Specification vocabulary for `f64`

IEEE 754 binary64, from the 64-bit pattern: sign, 11 bits of exponent, 52 bits of mantissa.
-/

namespace Fixnum

namespace Spec

/-- Sign bit. -/
def f64Negative (f : BitVec 64) : Prop := 2 ^ 63 ≤ f.toNat
/-- Biased exponent. -/
def f64Exponent (f : BitVec 64) : Nat := f.toNat / 2 ^ 52 % 2 ^ 11
/-- Fraction bits of the significand. -/
def f64Mantissa (f : BitVec 64) : Nat := f.toNat % 2 ^ 52

instance (f : BitVec 64) : Decidable (f64Negative f) := by unfold f64Negative; infer_instance

/-- Neither infinite nor NaN. -/
def f64Finite (f : BitVec 64) : Prop := f64Exponent f ≠ 2047

instance (f : BitVec 64) : Decidable (f64Finite f) := by unfold f64Finite; infer_instance

/-- Absolute value of a finite `f64`. -/
def f64Magnitude (f : BitVec 64) : ℚ :=
  if f64Exponent f = 0 then f64Mantissa f * 2 ^ (-1074 : ℤ)
  else (2 ^ 52 + f64Mantissa f) * 2 ^ ((f64Exponent f : ℤ) - 1075)

/-- The number denoted by a finite `f64`. -/
def f64Value (f : BitVec 64) : ℚ :=
  if f64Negative f then -f64Magnitude f else f64Magnitude f

/-- `-f`: the sign bit flipped. -/
def f64Neg (f : BitVec 64) : BitVec 64 := f ^^^ BitVec.ofNat 64 (2 ^ 63)

/-- `f` is `q` rounded to nearest, ties to even: no finite `f64` is closer to `q`; if another one is
equally close, the last mantissa bit of `f` is zero; and the sign bit is that of `q`. -/
def f64Nearest (f : BitVec 64) (q : ℚ) : Prop :=
  f64Finite f ∧ (f64Negative f ↔ q < 0) ∧
  (∀ g, f64Finite g → |f64Value f - q| ≤ |f64Value g - q|) ∧
  (∀ g, f64Finite g → f64Value g ≠ f64Value f → |f64Value f - q| = |f64Value g - q| →
    f64Mantissa f % 2 = 0)

/-- Rounding of a nonnegative number to an integer where a fractional part above 4/9 goes up. -/
def round49 (v : ℚ) : ℤ := ⌈v - 4 / 9⌉

/-- `t` is `y` cut to 52 bits of decimal significand: `10^g` is the last decimal place kept, the
smallest one that leaves a significand below `2^52`, but at most the unit place. -/
def DecimalCut (y t : ℚ) : Prop :=
  ∃ g : ℤ, g ≤ 0 ∧ (g = 0 ∨ y < 2 ^ 52 * 10 ^ g) ∧ 2 ^ 52 * 10 ^ (g - 1) ≤ y ∧
    t = round49 (y / 10 ^ g) * 10 ^ g

end Spec

end Fixnum
