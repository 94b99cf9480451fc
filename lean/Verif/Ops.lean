import Verif.Layout
import Verif.Sqrt

/-!
# Operations on primitive integers and the promotion types

Model of the impls of `/repo/src/ops/mod.rs:382-479` for the signed primitives, and of the
interface through which `impl_fixed_point!` (`/repo/src/lib.rs:233-738`) uses the promotion types
`i32`, `i64`, `i128` and `I256`.
-/

namespace Fixnum

open Res

namespace SInt

variable {w : Nat}

/-- `CheckedAdd::cadd`, `/repo/src/ops/mod.rs:404-406`. -/
def cadd (a b : BitVec w) : Res ArithErr (BitVec w) := ofOption .overflow (checkedAdd a b)

/-- `CheckedSub::csub`, `/repo/src/ops/mod.rs:419-421`. -/
def csub (a b : BitVec w) : Res ArithErr (BitVec w) := ofOption .overflow (checkedSub a b)

/-- `CheckedMul::cmul`, `/repo/src/ops/mod.rs:434-436`. -/
def cmul (a b : BitVec w) : Res ArithErr (BitVec w) := ofOption .overflow (checkedMul a b)

/-- The decision `add_signed_one` of the integer `rdiv`, `/repo/src/ops/mod.rs:461-466` (the same
text occurs at `/repo/src/lib.rs:334-339`). -/
def rdivTest (cfg : Cfg) (loss sign rhs : BitVec w) (mode : RoundMode) : Res ArithErr Bool :=
  if mode = .nearest then do
    let la ← SInt.abs cfg loss
    let s ← SInt.add cfg la la
    let ra ← SInt.abs cfg rhs
    .ok (decide (ra.toInt ≤ s.toInt))
  else .ok (decide (mode.disc = (SInt.cast 32 sign).toInt))

/-- `RoundingDiv::rdiv` for a primitive, `/repo/src/ops/mod.rs:449-475`. -/
def rdiv (cfg : Cfg) (a b : BitVec w) (mode : RoundMode) : Res ArithErr (BitVec w) := do
  if b.toInt = 0 then .err .divisionByZero
  else do
    let result ← SInt.div a b
    let prod ← SInt.mul cfg result b
    let loss ← SInt.sub cfg a prod
    if loss.toInt ≠ 0 then do
      let sign ← SInt.mul cfg (signum a) (signum b)
      let t ← rdivTest cfg loss sign b mode
      if t then ofOption .overflow (checkedAdd result sign) else .ok result
    else .ok result

end SInt

/-- The operations of a promotion type used by the macro, for a layout of `w` bits.
`toInt` is the mathematical value (used only in proofs).  The macro is `/repo/src/lib.rs:233-738`,
its parameters `$promotion` and `$convert`. -/
structure PromOps (w : Nat) where
  T : Type
  toInt : T → Int
  /-- `$promotion::from(layout)` and `$convert(COEF)` (`/repo/src/lib.rs:250,279`). -/
  ofL : BitVec w → T
  mul : Cfg → T → T → Res ArithErr T
  div : Cfg → T → T → Res ArithErr T
  add : Cfg → T → T → Res ArithErr T
  sub : Cfg → T → T → Res ArithErr T
  /-- `$layout::try_from(promoted)` (`/repo/src/lib.rs:285,288,326,329,636`); `none` is the `Err`. -/
  tryL : T → Option (BitVec w)
  sqrt : Cfg → T → Res ArithErr T
  one : T
  eq : T → T → Bool
  ge : T → T → Bool

/-- A primitive signed integer of `W` bits as promotion type of a layout of `w` bits:
`i16 → i32`, `i32 → i64`, `i64 → i128` (`/repo/src/lib.rs:749,757,765`). -/
def primProm (w W : Nat) : PromOps w where
  T := BitVec W
  toInt := BitVec.toInt
  ofL := SInt.cast W
  mul cfg a b := SInt.mul cfg a b
  div _ a b := SInt.div a b
  add cfg a b := SInt.add cfg a b
  sub cfg a b := SInt.sub cfg a b
  tryL a := SInt.tryFrom w a.toInt
  sqrt cfg a := do
    let r ← sqrtPrim cfg ⟨true, W⟩ a.toInt
    .ok (BitVec.ofInt W r)
  one := BitVec.ofInt W 1
  eq a b := decide (a = b)
  ge a b := decide (b.toInt ≤ a.toInt)

/-- `I256` as promotion type of `i128` (`/repo/src/lib.rs:773-774`). -/
def i256Prom : PromOps 128 where
  T := I256
  toInt := I256.toInt
  ofL := I256.fromI128
  mul cfg a b := I256.mul cfg a b
  div cfg a b := I256.div cfg a b
  add _ a b := .ok (I256.add a b)
  sub _ a b := .ok (I256.sub a b)
  tryL a := match I256.tryToI128 a with
    | .ok v => some v
    | _ => none
  sqrt cfg a := I256.sqrt cfg a
  one := I256.one
  eq a b := decide (a = b)
  ge a b := decide (I256.cmp a b ≠ .lt)

/-- `promoted_to = …` of the four instantiations, `/repo/src/lib.rs:745-776`. -/
def prom : (L : Layout) → PromOps L.bits
  | .i16 => primProm 16 32
  | .i32 => primProm 32 64
  | .i64 => primProm 64 128
  | .i128 => i256Prom

end Fixnum
