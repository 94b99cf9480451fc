import Verif.U256
import Verif.Errors

/-!
# `I256`: signed 256-bit integers

Model of `/repo/src/i256/mod.rs` on top of the limb-level `U256`.
(`Sqrt for I256` is in `Sqrt.lean`.)
-/

namespace Fixnum

open Res

variable {ε : Type}

/-- `struct I256`, `/repo/src/i256/mod.rs:18-21`. -/
@[ext] structure I256 where
  inner : U256
deriving DecidableEq, Repr

namespace I256

/-- `SIGN_MASK`, `/repo/src/i256/mod.rs:11`. -/
def signMask : W64 := 1#64 <<< 63

/-- `from_i128`, `/repo/src/i256/mod.rs:34-37` (`x >> 64` on `i128` is an arithmetic shift). -/
def fromI128 (x : BitVec 128) : I256 :=
  let msb : W64 := if x.toInt < 0 then BitVec.allOnes 64 else 0
  ⟨⟨x.setWidth 64, (x.sshiftRight 64).setWidth 64, msb, msb⟩⟩

/-- `I128_MAX`, `/repo/src/i256/mod.rs:24`. -/
def i128Max : I256 := fromI128 (BitVec.ofInt 128 (iMax 128))
/-- `I128_MIN`, `/repo/src/i256/mod.rs:25`. -/
def i128Min : I256 := fromI128 (BitVec.ofInt 128 (iMin 128))
/-- `U128_MAX`, `/repo/src/i256/mod.rs:26`. -/
def u128Max : I256 := ⟨⟨BitVec.allOnes 64, BitVec.allOnes 64, 0, 0⟩⟩
/-- `MAX`, `/repo/src/i256/mod.rs:27`. -/
def max : I256 := ⟨⟨BitVec.allOnes 64, BitVec.allOnes 64, BitVec.allOnes 64, ~~~signMask⟩⟩
/-- `MIN`, `/repo/src/i256/mod.rs:28`. -/
def min : I256 := ⟨⟨0, 0, 0, signMask⟩⟩
/-- `One::ONE`, `/repo/src/i256/mod.rs:175-177`. -/
def one : I256 := fromI128 1
/-- `Zero::ZERO`, `/repo/src/i256/mod.rs:179-181`. -/
def zero : I256 := fromI128 0

/-- `is_negative`, `/repo/src/i256/mod.rs:39-42`. -/
def isNegative (x : I256) : Bool := x.inner.w3 &&& signMask != 0

/-- `impl Neg`, `/repo/src/i256/mod.rs:110-121`. -/
def neg (cfg : Cfg) (x : I256) : Res ε I256 := do
  debugAssert cfg (decide (x ≠ min))
  .ok ⟨(U256.overflowingAdd (U256.not x.inner) one.inner).1⟩

/-- `if was_negative { -x } else { x }`, `/repo/src/i256/mod.rs:57-58,78-79`. -/
def negIf (cfg : Cfg) (b : Bool) (x : I256) : Res ε I256 := if b then neg cfg x else .ok x

/-- `impl Mul`, `/repo/src/i256/mod.rs:49-68`. -/
def mul (cfg : Cfg) (x y : I256) : Res ε I256 := do
  let lneg := x.isNegative
  let rneg := y.isNegative
  let lhs ← negIf cfg lneg x
  let rhs ← negIf cfg rneg y
  let r ← U256.mul cfg lhs.inner rhs.inner
  if lneg == rneg then .ok ⟨r⟩ else neg cfg ⟨r⟩

/-- `impl Div`, `/repo/src/i256/mod.rs:70-88`. -/
def div (cfg : Cfg) (x y : I256) : Res ε I256 := do
  let lneg := x.isNegative
  let rneg := y.isNegative
  let lhs ← negIf cfg lneg x
  let rhs ← negIf cfg rneg y
  let r ← U256.div cfg lhs.inner rhs.inner
  if lneg == rneg then .ok ⟨r⟩ else neg cfg ⟨r⟩

/-- `impl Add`, `/repo/src/i256/mod.rs:90-98`. -/
def add (x y : I256) : I256 := ⟨(U256.overflowingAdd x.inner y.inner).1⟩

/-- `impl Sub`, `/repo/src/i256/mod.rs:100-108`. -/
def sub (x y : I256) : I256 := ⟨(U256.overflowingSub x.inner y.inner).1⟩

/-- `impl Ord`, `/repo/src/i256/mod.rs:123-132`. -/
def cmp (x y : I256) : Ordering :=
  match x.isNegative, y.isNegative with
  | true, false => .lt
  | false, true => .gt
  | _, _ => U256.cmp x.inner y.inner

/-- `i128::try_from`, `/repo/src/i256/mod.rs:147-156`. -/
def tryToI128 (x : I256) : Res ArithErr (BitVec 128) :=
  if cmp x i128Max = .gt ∨ cmp x i128Min = .lt then .err .overflow
  else .ok (x.inner.w0.setWidth 128 ||| (x.inner.w1.setWidth 128 <<< 64))

/-- `From<u128>`, `/repo/src/i256/mod.rs:158-162`. -/
def ofU128 (x : BitVec 128) : I256 := ⟨U256.ofU128 x⟩

/-- `u128::try_from`, `/repo/src/i256/mod.rs:164-173`. -/
def tryToU128 (x : I256) : Res ConvErr (BitVec 128) :=
  if cmp x u128Max = .gt ∨ cmp x zero = .lt then .err ⟨"too big integer"⟩
  else .ok (x.inner.w0.setWidth 128 ||| (x.inner.w1.setWidth 128 <<< 64))

/-- The mathematical value, two's complement, of the type at `/repo/src/i256/mod.rs:19-21`
(specification function, models no code). -/
def toInt (x : I256) : Int :=
  if x.inner.toNat < 2 ^ 255 then x.inner.toNat else (x.inner.toNat : Int) - 2 ^ 256

end I256

end Fixnum
