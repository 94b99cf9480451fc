import Verif.ConstFn
import Verif.FixedPoint

/-!
# Literals

Model of the constant parser of `/repo/src/const_fn.rs:54-114` and of the macros `fixnum_const!` and
`fixnum!` of `/repo/src/macros.rs:179-231`.  The functions are evaluated by the compiler: only the
outcome `ok` means that the program compiles.  Bytes are natural numbers below 256; lengths fit
`i32` (a source file is shorter than 2 GiB).
-/

namespace Fixnum

open Res

variable {ε : Type}

/-- `const_assert!(b)`, `/repo/src/const_fn.rs:8-14`: an endless loop if the condition is false. -/
def constAssert (b : Bool) : Res ε Unit := if b then .ok () else .fault .diverge

/-- `find`, `/repo/src/const_fn.rs:54-65`. -/
def findByte (bytes : List Nat) (pattern : Nat) : Option Nat := bytes.findIdx? (· == pattern)

/-- `parse_digit`, `/repo/src/const_fn.rs:67-71`. -/
def parseDigit (cfg : Cfg) (byte : Nat) : Res ε (BitVec (intBits cfg)) := do
  let digit := (byte + 256 - 48) % 256
  constAssert (decide (digit < 10))
  .ok (BitVec.ofInt _ digit)

/-- The loop of `parse_int`, `/repo/src/const_fn.rs:77-81`, over the bytes `start..end`. -/
def parseIntLoop (cfg : Cfg) : List Nat → BitVec (intBits cfg) → Res ε (BitVec (intBits cfg))
  | [], result => .ok result
  | b :: rest, result => do
    let digit ← parseDigit cfg b
    let p ← pow10 cfg rest.length
    let t ← SInt.mul cfg digit p
    let result ← SInt.add cfg result t
    parseIntLoop cfg rest result

/-- `parse_int`, `/repo/src/const_fn.rs:73-84`; `end ≤ bytes.len()` at every call. -/
def parseInt (cfg : Cfg) (bytes : List Nat) (start «end» : Nat) : Res ε (BitVec (intBits cfg)) :=
  parseIntLoop cfg ((bytes.drop start).take («end» - start)) (BitVec.ofInt _ 0)

/-- `parse_fixed`, `/repo/src/const_fn.rs:87-114`. -/
def parseFixed (cfg : Cfg) (bytes : List Nat) (coef : BitVec (intBits cfg)) :
    Res ε (BitVec (intBits cfg)) := do
  let first ← idx bytes 0
  let signum : BitVec (intBits cfg) := BitVec.ofInt _ (if first = 45 then -1 else 1)
  let start := if first = 45 ∨ first = 43 then 1 else 0
  match findByte bytes 46 with
  | none => do
    let integral ← parseInt cfg bytes start bytes.length
    let t ← SInt.mul cfg signum integral
    SInt.mul cfg t coef
  | some point => do
    let integral ← parseInt cfg bytes start point
    let exp ← pow10 cfg (bytes.length - point - 1)
    constAssert (decide (exp.toInt ≤ coef.toInt))
    let fractional ← parseInt cfg bytes (point + 1) bytes.length
    let finalIntegral ← SInt.mul cfg integral coef
    let t ← SInt.div coef exp
    let finalFractional ← SInt.mul cfg t fractional
    let s ← SInt.add cfg finalIntegral finalFractional
    SInt.mul cfg signum s

/-- `fixnum_const!(value, P)` at the type `FixedPoint<L, P>`, `/repo/src/macros.rs:179-186`, and
`fixnum!` (`/repo/src/macros.rs:227-231`) with the identity conversion (others:
`Wrap.lean`).  `bytes` is `stringify!(value)`.  Here the precision passed to the macro is that of the type. -/
def fixnumConst (cfg : Cfg) (L : Layout) (P : Nat) (bytes : List Nat) : Res ε (FP L P) := do
  let coef ← pow10 cfg P
  let v ← parseFixed cfg bytes coef
  .ok (FP.fromBits (SInt.cast L.bits v))

/-- `fixnum_const!(value, Q)` where the context asks for the type `FixedPoint<L, P>`,
`/repo/src/macros.rs:179-186`: nothing in the expansion relates `Q` to `P`. -/
def fixnumConstAt (cfg : Cfg) (L : Layout) (P Q : Nat) (bytes : List Nat) : Res ε (FP L P) := do
  let coef ← pow10 cfg Q
  let v ← parseFixed cfg bytes coef
  .ok (FP.fromBits (SInt.cast L.bits v))

end Fixnum
