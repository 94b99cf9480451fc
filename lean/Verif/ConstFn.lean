import Verif.Layout
import Verif.U256

/-!
# Constant functions

Model of `pow10` of `/repo/src/const_fn.rs`; the literal parser is in `Literal.lean`.
The functions are evaluated by the compiler; an evaluation that panics or does not terminate is a
compile error, which the model reports as the corresponding fault.
-/

namespace Fixnum

open Res

variable {ε : Type}

/-- Width of `type Int`, `/repo/src/const_fn.rs:3-6`. -/
def intBits (cfg : Cfg) : Nat := if cfg.i128 then 128 else 64

/-- `const POW_10: [Int; 19]`, `/repo/src/const_fn.rs:17-37`. -/
def pow10Table : List Int := [
  1, 10, 100, 1000, 10000, 100000, 1000000, 10000000, 100000000, 1000000000, 10000000000,
  100000000000, 1000000000000, 10000000000000, 100000000000000, 1000000000000000,
  10000000000000000, 100000000000000000, 1000000000000000000]

/-- The `while i > 0 { result *= 10; i -= 1 }` loop, `/repo/src/const_fn.rs:46-49`. -/
def pow10Loop (cfg : Cfg) : Nat → BitVec (intBits cfg) → Res ε (BitVec (intBits cfg))
  | 0, r => .ok r
  | i + 1, r => do
    let r' ← SInt.mul cfg r (BitVec.ofInt _ 10)
    pow10Loop cfg i r'

/-- `pow10`, `/repo/src/const_fn.rs:16-52`, for a power `≥ 0` (precisions and lengths are never
negative; the loop counter `power - 19 + 1` fits `i32` because `power` does). -/
def pow10 (cfg : Cfg) (power : Nat) : Res ε (BitVec (intBits cfg)) :=
  if power < 19 then do
    let v ← idx pow10Table power
    .ok (BitVec.ofInt _ v)
  else do
    let v ← idx pow10Table 18
    pow10Loop cfg (power - 19 + 1) (BitVec.ofInt _ v)

/-- `const COEF: $layout = const_fn::pow10(Self::PRECISION) as _`, `/repo/src/lib.rs:248`.
The `as _` cast truncates or sign-extends. -/
def coef (cfg : Cfg) (L : Layout) (P : Nat) : Res ε (BitVec L.bits) := do
  let v ← pow10 cfg P
  .ok (SInt.cast L.bits v)

/-- `const NEG_COEF: $layout = -Self::COEF`, `/repo/src/lib.rs:249` (an overflow in a constant
item is always a compile error). -/
def negCoef (cfg : Cfg) (L : Layout) (P : Nat) : Res ε (BitVec L.bits) := do
  let c ← coef cfg L P
  SInt.neg { cfg with overflowChecks := true } c

end Fixnum
