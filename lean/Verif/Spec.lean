import Verif.Layout
import Mathlib.Algebra.Order.Floor.Ring
import Mathlib.Data.Rat.Floor
import Mathlib.Tactic.FieldSimp

/-!
# Specification vocabulary

What the properties mean, in terms of rational numbers.  Nothing here looks at how the code
computes; only the types `FP`, `RoundMode`, `Res` (outcome of a call) are shared with the model.
-/

namespace Fixnum

namespace Spec

variable {L : Layout} {P : Nat} {ε α : Type}

/-- The rational number denoted by a fixed-point value: `raw · 10^-P`. -/
def value (x : FP L P) : ℚ := (x.inner.toInt : ℚ) / 10 ^ P

/-- Smallest and largest raw integer of a layout. -/
def rawMin (L : Layout) : Int := -(2 ^ (L.bits - 1))
def rawMax (L : Layout) : Int := 2 ^ (L.bits - 1) - 1

/-- Smallest and largest denoted number. -/
def minValue (L : Layout) (P : Nat) : ℚ := (rawMin L : ℚ) / 10 ^ P
def maxValue (L : Layout) (P : Nat) : ℚ := (rawMax L : ℚ) / 10 ^ P

/-- The precisions for which the number one (and its coefficient `10^P`) fits the layout, and the
feature requirement: the 128-bit layout exists only with the crate feature `i128`. -/
def Valid (cfg : Cfg) (L : Layout) (P : Nat) : Prop :=
  (10 : Int) ^ P ≤ rawMax L ∧ (L = .i128 → cfg.i128 = true)

instance (cfg : Cfg) (L : Layout) (P : Nat) : Decidable (Valid cfg L P) := by
  unfold Valid; infer_instance

/-- Nearest integer, halves away from zero. -/
def nearest (q : ℚ) : Int := if 0 ≤ q then ⌊q + 1 / 2⌋ else ⌈q - 1 / 2⌉

/-- Rounding of a rational to an integer. -/
def round : RoundMode → ℚ → Int
  | .floor, q => ⌊q⌋
  | .ceil, q => ⌈q⌉
  | .nearest, q => nearest q

/-- Rounding of a rational to a multiple of `10^-P`. -/
def roundTo (P : Nat) (mode : RoundMode) (q : ℚ) : ℚ := (round mode (q * 10 ^ P) : ℚ) / 10 ^ P

/-- `q` is the value of some fixed-point number of this type. -/
def Representable (L : Layout) (P : Nat) (q : ℚ) : Prop := ∃ c : FP L P, value c = q

/-- A call "returns exactly `q`, or the error `e` if `q` is not representable".
In particular it neither panics nor diverges. -/
def ExactOr (e : ε) (r : Res ε (FP L P)) (q : ℚ) : Prop :=
  (Representable L P q → ∃ c, r = .ok c ∧ value c = q) ∧ (¬ Representable L P q → r = .err e)

/-- The number `q` clamped into the range of the type. -/
def clamp (L : Layout) (P : Nat) (q : ℚ) : ℚ := max (minValue L P) (min (maxValue L P) q)

/-- A call on `w`-bit signed integers "returns exactly `z`, or the error `e` if `z` is out of
range".  In particular it neither panics nor diverges. -/
def IntExactOr {w : Nat} (e : ε) (r : Res ε (BitVec w)) (z : Int) : Prop :=
  (-(2 ^ (w - 1)) ≤ z ∧ z ≤ 2 ^ (w - 1) - 1 → ∃ c, r = .ok c ∧ c.toInt = z) ∧
  (¬ (-(2 ^ (w - 1)) ≤ z ∧ z ≤ 2 ^ (w - 1) - 1) → r = .err e)

end Spec

end Fixnum
