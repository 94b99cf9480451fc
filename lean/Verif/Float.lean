import Verif.FixedPoint

/-!
# Conversion from `f64`

Model of `/repo/src/float.rs` and of `power_of_10`, `rdiv_by_exponent_10`
(`/repo/src/power_table.rs:735-751`).

An `f64` is its 64-bit pattern (`BitVec 64`), which is what `to_bits` gives.  A `u128` is a natural
number; an operation that can exceed `2^128` says what happens then.  An `i32` is an integer; every
arithmetic operation on it goes through `i32`, which checks the range.
-/

namespace Fixnum

open Res

variable {ε : Type} {L : Layout} {P : Nat}

/-- An `i32` operation with mathematical result `z`: panics on overflow with overflow checks, wraps
around otherwise.  Rust semantics.  As at `/repo/src/float.rs:49,59,60`. -/
def i32 (cfg : Cfg) (z : Int) : Res ε Int :=
  if Fits 32 z then .ok z else if cfg.overflowChecks then .panic else .ok (z.bmod (2 ^ 32))

/-- `z as u32` for an `i32`.  Rust semantics.  Used at `/repo/src/float.rs:58,141,161,168`. -/
def asU32 (z : Int) : Nat := (z % 2 ^ 32).toNat

/-- `z as usize` for an `i32` (64-bit platform; a negative number is a huge index on every
platform).  Rust semantics.  Used at `/repo/src/float.rs:71,146`. -/
def asUsize (z : Int) : Nat := (z % 2 ^ 64).toNat

namespace U128

/-- A `u128` operation with mathematical result `n`: overflow as for `i32`.  Rust semantics.  As at
`/repo/src/float.rs:71,149`. -/
def arith (cfg : Cfg) (n : Nat) : Res ε Nat :=
  if n < 2 ^ 128 then .ok n else if cfg.overflowChecks then .panic else .ok (n % 2 ^ 128)

/-- `checked_mul`.  `core`.  Used at `/repo/src/float.rs:73,98,162`. -/
def checkedMul (a b : Nat) : Option Nat := if a * b < 2 ^ 128 then some (a * b) else none

/-- `a / b`.  Rust semantics: division by zero panics.  Used at `/repo/src/float.rs:127,147`,
`/repo/src/power_table.rs:743`. -/
def div (a b : Nat) : Res ε Nat := if b = 0 then .panic else .ok (a / b)

/-- `a % b`.  Rust semantics: division by zero panics.  Used at `/repo/src/float.rs:148`,
`/repo/src/power_table.rs:744`. -/
def rem (a b : Nat) : Res ε Nat := if b = 0 then .panic else .ok (a % b)

/-- Number of trailing zeros among the lowest `k` bits.  Auxiliary to `trailingZeros`,
`/repo/src/float.rs:58`. -/
def trailing : Nat → Nat → Nat
  | 0, _ => 0
  | k + 1, a => if a % 2 = 1 then 0 else trailing k (a / 2) + 1

/-- `trailing_zeros()` of a `u128`.  `core`.  Used at `/repo/src/float.rs:58`. -/
def trailingZeros (a : Nat) : Nat := trailing 128 a

/-- `leading_zeros()` of a `u128`.  `core`.  Used at `/repo/src/float.rs:66,139`. -/
def leadingZeros (a : Nat) : Nat := if a = 0 then 128 else 127 - Nat.log2 a

end U128

/-- `power_of_10`, `/repo/src/power_table.rs:735-737`. -/
def powerOf10 (pow : Nat) : Option Nat := PowerTable.powersOf10[pow]?.map fun p => p.1

/-- `/repo/src/float.rs:147-152`, which are also the closure of `rdiv_by_exponent_10`
(`/repo/src/power_table.rs:742-749`). -/
def rdivThreshold (cfg : Cfg) (x divisor remainder : Nat) : Res ε Nat := do
  let res ← U128.div x divisor
  let r ← U128.rem x divisor
  if r > remainder then U128.arith cfg (res + 1) else .ok res

/-- `rdiv_by_exponent_10`, `/repo/src/power_table.rs:739-751`. -/
def rdivByExponent10 (cfg : Cfg) (x exp10 : Nat) : Res ε Nat :=
  match PowerTable.powersOf10[exp10]? with
  | some (divisor, remainder) => rdivThreshold cfg x divisor remainder
  | none => .ok 0

namespace F64

/-- `is_finite()`: not all exponent bits are set.  `core`.  Used at `/repo/src/float.rs:19`. -/
def isFinite (f : BitVec 64) : Bool := (f.toNat >>> 52) &&& 0x7FF != 0x7FF

/-- The working variables `bits`, `exponent5`, `exponent10` of `try_from`.
`/repo/src/float.rs:30,53,54`. -/
structure Scaled where
  bits : Nat
  exponent5 : Int
  exponent10 : Int
deriving DecidableEq, Repr

/-- The `while` loop of `/repo/src/float.rs:92-109`; `fuel` bounds the iterations, running
out of it is divergence. -/
def absorb (cfg : Cfg) : Nat → Scaled → Res ε Scaled
  | 0, s => if s.exponent5 > 0 then .fault .diverge else .ok s
  | fuel + 1, ⟨bits, exponent5, exponent10⟩ =>
    if exponent5 > 0 then
      if bits &&& 1 = 0 then do
        let exponent10 ← i32 cfg (exponent10 + 1)
        let exponent5 ← i32 cfg (exponent5 - 1)
        absorb cfg fuel ⟨bits >>> 1, exponent5, exponent10⟩
      else match U128.checkedMul bits 5 with
        | some b => do
          let exponent5 ← i32 cfg (exponent5 - 1)
          absorb cfg fuel ⟨b, exponent5, exponent10⟩
        | none => do
          let exponent10 ← i32 cfg (exponent10 + 1)
          let exponent5 ← i32 cfg (exponent5 - 1)
          absorb cfg fuel ⟨bits >>> 1, exponent5, exponent10⟩
    else .ok ⟨bits, exponent5, exponent10⟩

/-- `/repo/src/float.rs:66-80`: the new significand and `reduced_exponent5`. -/
def multiply5 (cfg : Cfg) (bits : Nat) (exponent5 : Int) : Res ε (Nat × Int) := do
  let lz := U128.leadingZeros bits
  if lz = 0 then .ok (bits, 0)
  else do
    let m ← idx PowerTable.maxExponent5 (lz - 1)
    let multiplier := min exponent5 m
    let p ← idx PowerTable.powersOf5 (asUsize multiplier)
    let bits ← U128.arith cfg (bits * p)
    if multiplier < exponent5 then
      match U128.checkedMul bits 5 with
      | some b => do
        let r ← i32 cfg (multiplier + 1)
        .ok (b, r)
      | none => .ok (bits, multiplier)
    else .ok (bits, multiplier)

/-- `/repo/src/float.rs:56-111`: negative powers of two. -/
def scaleDown (cfg : Cfg) (s : Scaled) : Res ε Scaled :=
  if s.exponent5 > 0 then do
    let excess : Int := min (U128.trailingZeros s.bits) (asU32 s.exponent5)
    let exponent10 ← i32 cfg (s.exponent10 + excess)
    let exponent5 ← i32 cfg (s.exponent5 - excess)
    let bits := s.bits >>> excess.toNat
    if exponent5 > 0 then do
      let (bits, reduced) ← multiply5 cfg bits exponent5
      if reduced = 0 then do
        let exponent10 ← i32 cfg (exponent10 + 1)
        let exponent5 ← i32 cfg (exponent5 - 1)
        absorb cfg exponent5.toNat ⟨bits >>> 1, exponent5, exponent10⟩
      else do
        let exponent5 ← i32 cfg (exponent5 - reduced)
        absorb cfg exponent5.toNat ⟨bits, exponent5, exponent10⟩
    else .ok ⟨bits, exponent5, exponent10⟩
  else .ok s

/-- The `while` loop of `/repo/src/float.rs:113-129`: positive powers of two.  (The shift
`bits << 1` drops no bit: the highest one is zero.) -/
def scaleUp (cfg : Cfg) : Nat → Scaled → Res ε Scaled
  | 0, s => if s.exponent5 < 0 then .fault .diverge else .ok s
  | fuel + 1, ⟨bits, exponent5, exponent10⟩ =>
    if exponent5 < 0 then
      if bits &&& 2 ^ 127 = 0 then do
        let exponent10 ← i32 cfg (exponent10 - 1)
        let exponent5 ← i32 cfg (exponent5 + 1)
        scaleUp cfg fuel ⟨(bits <<< 1) % 2 ^ 128, exponent5, exponent10⟩
      else do
        let exponent5 ← i32 cfg (exponent5 + 1)
        let b ← U128.div bits 5
        scaleUp cfg fuel ⟨b, exponent5, exponent10⟩
    else .ok ⟨bits, exponent5, exponent10⟩

/-- `/repo/src/float.rs:133-154`: removal of the excess digits.  The pair is the new
`bits` and `exponent10`. -/
def trim (cfg : Cfg) (bits : Nat) (exponent10 : Int) : Res ε (Nat × Int) :=
  let pre := bits >>> 52
  if exponent10 < 0 ∧ pre > 0 then do
    let lz := U128.leadingZeros bits + 52
    let d ← idx PowerTable.nextExponent10 lz
    let divisor ← unwrap (ofOption () (powerOf10 (asU32 d)))
    let d ← (if pre ≥ divisor then idx PowerTable.nextExponent10 (lz - 1) else .ok d)
    let neg ← i32 cfg (-exponent10)
    let d := min d neg
    let (divisor, remainder) ← idx PowerTable.powersOf10 (asUsize d)
    let bits ← rdivThreshold cfg bits divisor remainder
    let exponent10 ← i32 cfg (exponent10 + d)
    .ok (bits, exponent10)
  else .ok (bits, exponent10)

/-- `/repo/src/float.rs:156-169`: scaling to the precision `P`. -/
def rescale (cfg : Cfg) (P : Nat) (bits : Nat) (exponent10 : Int) : Res ConvErr Nat := do
  let negP ← i32 cfg (-(P : Int))
  if exponent10 > negP then do
    let e ← i32 cfg (exponent10 + P)
    ofOption ⟨"too big number"⟩
      ((powerOf10 (asU32 e)).bind fun multiplier => U128.checkedMul bits multiplier)
  else if exponent10 < negP then do
    let e ← i32 cfg (negP - exponent10)
    rdivByExponent10 cfg bits (asU32 e)
  else .ok bits

end F64

open F64

/-- `TryFrom<f64>`, `/repo/src/float.rs:10-195`.  `fuel` for the loops is the exponent they count
down, plus nothing: each iteration changes it by one. -/
def FP.tryFromF64 (cfg : Cfg) (value : BitVec 64) : Res ConvErr (FP L P) :=
  if !isFinite value then .err ⟨"not finite"⟩
  else
    let raw := value.toNat
    let positive := raw >>> 63 == 0
    let biased : Int := ((raw >>> 52) &&& 0x7FF : Nat)
    let bits := raw &&& 0x000FFFFFFFFFFFFF
    if biased = 0 ∧ bits = 0 then .ok FP.zero
    else do
      let (bits, exponent2) ← (if biased = 0 then .ok (bits, -1022)
        else do
          let e ← i32 cfg (biased - 1023)
          .ok (bits ||| 0x0010000000000000, e))
      let exponent2 ← i32 cfg (exponent2 - 52)
      let exponent5 ← i32 cfg (-exponent2)
      let s ← scaleDown cfg ⟨bits, exponent5, exponent2⟩
      let s ← scaleUp cfg (-s.exponent5).toNat s
      let (bits, exponent10) ← trim cfg s.bits s.exponent10
      let bits ← rescale cfg P bits exponent10
      let v ← ofOption ⟨"too big number"⟩ (SInt.tryFrom L.bits bits)
      if positive then .ok (fromBits v)
      else do
        let n ← ofOption ⟨"too big number"⟩ (SInt.checkedNeg v)
        .ok (fromBits n)

end Fixnum
