import Verif.FixedPoint
import Verif.Float

/-!
# IEEE 754 binary64 arithmetic used by `From<FixedPoint> for f64`

`as f64`, `/` and `+` of Rust are the IEEE 754 operations: the exact result rounded to nearest, ties
to even.  A number is its 64-bit pattern.  This file models the language, except `FP.toF64`.
-/

namespace Fixnum

open Res

variable {L : Layout} {P : Nat} {ε : Type}

namespace F64

/-- `⌊log₂ (n/d)⌋` for positive `n` and `d`.  Auxiliary to `roundMag`: the binary
exponent of the operations at `/repo/src/lib.rs:717-719`. -/
def ilog (n d : Nat) : Int :=
  let k : Int := n.log2 - d.log2
  if d * 2 ^ k.toNat ≤ n * 2 ^ (-k).toNat then k else k - 1

/-- `n/d` rounded to an integer, ties to even.  Auxiliary to `roundMag`: the rounding of the
operations at `/repo/src/lib.rs:717-719`. -/
def halfEven (n d : Nat) : Nat :=
  let q := n / d
  let r := n % d
  if 2 * r < d then q else if d < 2 * r then q + 1 else q + q % 2

/-- The pattern (without the sign bit) of `n/d` rounded to 53 significant bits, with the least
exponent `-1074` and overflow to infinity.  A significand rounded up to `2^53` carries into the
exponent field.  Auxiliary to `ofRat`, `/repo/src/lib.rs:717-719`. -/
def roundMag (n d : Nat) : Nat :=
  if n = 0 then 0
  else
    let e : Int := max (-1074) (ilog n d - 52)
    let q := halfEven (n * 2 ^ (-e).toNat) (d * 2 ^ e.toNat)
    min (2047 * 2 ^ 52) ((e + 1074).toNat * 2 ^ 52 + q)

/-- Round to nearest even; zero is `+0`.  The rounding of the operations at
`/repo/src/lib.rs:717-719`. -/
def ofRat (q : ℚ) : BitVec 64 :=
  let m := roundMag q.num.natAbs q.den
  BitVec.ofNat 64 (if q.num < 0 then 2 ^ 63 + m else m)

/-- The number denoted by a finite pattern.  Operands of the operations at
`/repo/src/lib.rs:718,719`. -/
def toRat (f : BitVec 64) : ℚ :=
  let raw := f.toNat
  let e : Nat := raw / 2 ^ 52 % 2 ^ 11
  let m : Nat := raw % 2 ^ 52
  let significand : Nat := if e = 0 then m else 2 ^ 52 + m
  let x : Int := if e = 0 then -1074 else (e : Int) - 1075
  let n : Nat := significand * 2 ^ x.toNat
  mkRat (if 2 ^ 63 ≤ raw then -(n : Int) else n) (2 ^ (-x).toNat)

/-- `z as f64` for an integer.  Used at `/repo/src/lib.rs:717,718`. -/
def ofInt (z : Int) : BitVec 64 := ofRat z

/-- `a / b` for finite `a` and finite positive `b` with a finite result, except `-0.0 / b` (the only
zero divided by `FP.toF64` is `+0`).  Used at `/repo/src/lib.rs:718`. -/
def div (a b : BitVec 64) : BitVec 64 := ofRat (toRat a / toRat b)

/-- `a + b` for finite numbers, except `-0.0 + -0.0` (`FP.toF64` never adds two negative zeros).
Used at `/repo/src/lib.rs:719`. -/
def add (a b : BitVec 64) : BitVec 64 := ofRat (toRat a + toRat b)

end F64

/-- `From<FixedPoint> for f64`, `/repo/src/lib.rs:714-721`. -/
def FP.toF64 (cfg : Cfg) (a : FP L P) : Res ε (BitVec 64) := do
  let c ← coef cfg L P
  let q ← SInt.div a.inner c
  let integral := F64.ofInt q.toInt
  let r ← SInt.rem a.inner c
  let fractional := F64.div (F64.ofInt r.toInt) (F64.ofInt c.toInt)
  .ok (F64.add integral fractional)

end Fixnum
