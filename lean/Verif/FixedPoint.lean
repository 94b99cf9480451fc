import Verif.Ops
import Verif.ConstFn
import Verif.PowerTable

/-!
# `FixedPoint`

Model of the macro `impl_fixed_point!`, `/repo/src/lib.rs:233-738`, once for all layouts, and of
the default methods of `/repo/src/ops/mod.rs`.  (`Display`, parsing and floats are in their own
files.)  Associated constants are evaluated by the compiler; they appear as bound values here
because their evaluation can fail.
-/

namespace Fixnum

open Res

namespace FP

variable {L : Layout} {P : Nat} {ε : Type}

/-- `Zero::ZERO`, `/repo/src/lib.rs:254-256`. -/
def zero : FP L P := fromBits (BitVec.ofInt _ 0)
/-- `One::ONE`, `/repo/src/lib.rs:259-261`. -/
def one (cfg : Cfg) : Res ε (FP L P) := do
  let c ← coef cfg L P
  .ok (fromBits c)
/-- `EPSILON`, `/repo/src/lib.rs:246`. -/
def epsilon : FP L P := fromBits (BitVec.ofInt _ 1)
/-- `Bounded::MIN`, `/repo/src/lib.rs:265`. -/
def min : FP L P := fromBits (BitVec.ofInt _ (iMin L.bits))
/-- `Bounded::MAX`, `/repo/src/lib.rs:266`. -/
def max : FP L P := fromBits (BitVec.ofInt _ (iMax L.bits))

/-- Derived `PartialOrd`/`Ord`, `/repo/src/lib.rs:197`: comparison of `inner` (the marker is a unit). -/
def cmp (a b : FP L P) : Ordering := compare a.inner.toInt b.inner.toInt
/-- Derived `PartialEq`, `/repo/src/lib.rs:197`. -/
def beq (a b : FP L P) : Bool := decide (a.inner = b.inner)

/-- `sign as i32 >= 0 && loss + loss >= COEF`, `/repo/src/lib.rs:292`. -/
def rmulUp (cfg : Cfg) (c loss sign : BitVec L.bits) : Res ArithErr Bool :=
  if 0 ≤ (SInt.cast 32 sign).toInt then do
    let s ← SInt.add cfg loss loss
    .ok (decide (c.toInt ≤ s.toInt))
  else .ok false

/-- `loss + loss <= NEG_COEF`, `/repo/src/lib.rs:293`. -/
def rmulDown (cfg : Cfg) (P : Nat) (loss : BitVec L.bits) : Res ArithErr Bool := do
  let s ← SInt.add cfg loss loss
  let nc ← negCoef cfg L P
  .ok (decide (s.toInt ≤ nc.toInt))

/-- The decision `add_signed_one` of `rmul`, `/repo/src/lib.rs:291-296`. -/
def rmulTest (cfg : Cfg) (P : Nat) (c loss sign : BitVec L.bits) (mode : RoundMode) :
    Res ArithErr Bool :=
  if mode = .nearest then do
    let first ← rmulUp cfg c loss sign
    if first then .ok true else rmulDown cfg P loss
  else .ok (decide (loss.toInt ≠ 0) && decide (mode.disc = (SInt.cast 32 sign).toInt))

/-- `rmul`, `/repo/src/lib.rs:275-303`. -/
def rmul (cfg : Cfg) (a b : FP L P) (mode : RoundMode) : Res ArithErr (FP L P) := do
  let p := prom L
  let c ← coef cfg L P
  let cp := p.ofL c
  let value ← p.mul cfg (p.ofL a.inner) (p.ofL b.inner)
  let result ← p.div cfg value cp
  let t ← p.mul cfg result cp
  let lossP ← p.sub cfg value t
  let result ← ofOption .overflow (p.tryL result)
  let loss ← unwrap (ofOption ArithErr.overflow (p.tryL lossP))
  let sign ← SInt.mul cfg (SInt.signum a.inner) (SInt.signum b.inner)
  let addSignedOne ← rmulTest cfg P c loss sign mode
  if addSignedOne then do
    let r ← ofOption .overflow (SInt.checkedAdd result sign)
    .ok (fromBits r)
  else .ok (fromBits result)

/-- `rdiv` by a fixed-point number, `/repo/src/lib.rs:312-347`. -/
def rdiv (cfg : Cfg) (a b : FP L P) (mode : RoundMode) : Res ArithErr (FP L P) := do
  if b.inner.toInt = 0 then .err .divisionByZero
  else do
    let p := prom L
    let c ← coef cfg L P
    let numerator ← p.mul cfg (p.ofL a.inner) (p.ofL c)
    let denominator := p.ofL b.inner
    let result ← p.div cfg numerator denominator
    let t ← p.mul cfg result denominator
    let lossP ← p.sub cfg numerator t
    let result ← ofOption .overflow (p.tryL result)
    let loss ← unwrap (ofOption ArithErr.overflow (p.tryL lossP))
    if loss.toInt ≠ 0 then do
      let sign ← SInt.mul cfg (SInt.signum a.inner) (SInt.signum b.inner)
      let t ← SInt.rdivTest cfg loss sign b.inner mode
      if t then do
        let r ← ofOption .overflow (SInt.checkedAdd result sign)
        .ok (fromBits r)
      else .ok (fromBits result)
    else .ok (fromBits result)

/-- `rdiv` by a layout integer, `/repo/src/lib.rs:356-358`. -/
def rdivInt (cfg : Cfg) (a : FP L P) (b : BitVec L.bits) (mode : RoundMode) :
    Res ArithErr (FP L P) :=
  mapOk (SInt.rdiv cfg a.inner b mode) fromBits

/-- `TryFrom<$try_from>`, `/repo/src/lib.rs:725-735`, for a source integer whose mathematical value is
`n` (of any of the twelve types `i8 … u128, isize, usize`, `/repo/src/lib.rs:751`). -/
def tryFromInt (cfg : Cfg) (n : Int) : Res ConvErr (FP L P) := do
  let v ← ofOption ⟨"too big number"⟩ (SInt.tryFrom L.bits n)
  let c ← coef cfg L P
  let r ← ofOption ⟨"too big number"⟩ (SInt.checkedMul v c)
  .ok (fromBits r)

/-- `rdiv` of a layout integer by a fixed-point number, `/repo/src/lib.rs:367-370`. -/
def intRdiv (cfg : Cfg) (a : BitVec L.bits) (b : FP L P) (mode : RoundMode) :
    Res ArithErr (FP L P) := do
  let lhs ← mapErr (tryFromInt (L := L) (P := P) cfg a.toInt) (fun _ => ArithErr.overflow)
  rdiv cfg lhs b mode

/-- `cadd`, `/repo/src/lib.rs:379-381`. -/
def cadd (a b : FP L P) : Res ArithErr (FP L P) := mapOk (SInt.cadd a.inner b.inner) fromBits
/-- `saturating_add`, `/repo/src/lib.rs:384-386`. -/
def saturatingAdd (a b : FP L P) : FP L P := fromBits (SInt.saturatingAdd a.inner b.inner)
/-- `csub`, `/repo/src/lib.rs:395-397`. -/
def csub (a b : FP L P) : Res ArithErr (FP L P) := mapOk (SInt.csub a.inner b.inner) fromBits
/-- `saturating_sub`, `/repo/src/lib.rs:400-402`. -/
def saturatingSub (a b : FP L P) : FP L P := fromBits (SInt.saturatingSub a.inner b.inner)
/-- `cmul` by a layout integer, `/repo/src/lib.rs:411-413`. -/
def cmul (a : FP L P) (n : BitVec L.bits) : Res ArithErr (FP L P) :=
  mapOk (SInt.cmul a.inner n) fromBits
/-- `saturating_mul` by a layout integer, `/repo/src/lib.rs:416-418`. -/
def saturatingMul (a : FP L P) (n : BitVec L.bits) : FP L P :=
  fromBits (SInt.saturatingMul a.inner n)
/-- `cmul` of a layout integer by a fixed-point number, `/repo/src/lib.rs:427-429`. -/
def intCmul (n : BitVec L.bits) (a : FP L P) : Res ArithErr (FP L P) := cmul a n
/-- `saturating_mul` of a layout integer by a fixed-point number, `/repo/src/lib.rs:432-434` (the inherent
integer method takes precedence in `self.saturating_mul(rhs.inner)`). -/
def intSaturatingMul (n : BitVec L.bits) (a : FP L P) : FP L P :=
  fromBits (SInt.saturatingMul n a.inner)

/-- Default `saturating_rmul`, `/repo/src/ops/mod.rs:328-343`. -/
def saturatingRmul (cfg : Cfg) (a b : FP L P) (mode : RoundMode) : Res ε (FP L P) :=
  let isLhsNegative := decide (cmp a zero = .lt)
  let isRhsNegative := decide (cmp b zero = .lt)
  unwrapOr (rmul cfg a b mode) (if isLhsNegative == isRhsNegative then max else min)

/-- `signum`, `/repo/src/lib.rs:444-446`. -/
def signum (a : FP L P) : BitVec L.bits := SInt.signum a.inner

/-- `recip`, `/repo/src/lib.rs:450-452`. -/
def recip (cfg : Cfg) (a : FP L P) (mode : RoundMode) : Res ArithErr (FP L P) := do
  let o ← one cfg
  rdiv cfg o a mode

/-- `cneg`, `/repo/src/lib.rs:458-463`. -/
def cneg (a : FP L P) : Res ArithErr (FP L P) :=
  ofOption .overflow ((SInt.checkedNeg a.inner).map fromBits)

/-- `abs`, `/repo/src/lib.rs:574-580`. -/
def abs (a : FP L P) : Res ArithErr (FP L P) :=
  if a.inner.toInt < 0 then cneg a else .ok a

/-- `half_sum`, `/repo/src/lib.rs:467-476`. -/
def halfSum (cfg : Cfg) (a b : FP L P) (mode : RoundMode) : Res ε (FP L P) := do
  if SInt.signum a.inner ≠ SInt.signum b.inner then do
    let s ← SInt.add cfg a.inner b.inner
    unwrap (rdivInt cfg (fromBits s) (BitVec.ofInt _ 2) mode)
  else do
    let mn := if b.inner.toInt < a.inner.toInt then b.inner else a.inner
    let mx := if b.inner.toInt < a.inner.toInt then a.inner else b.inner
    let d ← SInt.sub cfg mx mn
    let halfDiff ← unwrap (SInt.rdiv cfg d (BitVec.ofInt _ 2) mode)
    let r ← SInt.add cfg mn halfDiff
    .ok (fromBits r)

/-- The decision `add_signed_one` of `integral`, `/repo/src/lib.rs:505-509`. -/
def integralTest (cfg : Cfg) (c frac sign : BitVec L.bits) (mode : RoundMode) : Res ε Bool :=
  if mode = .nearest then do
    let s ← SInt.add cfg frac frac
    .ok (decide (c.toInt ≤ s.toInt))
  else .ok (decide (mode.disc = (SInt.cast 32 sign).toInt) && decide (0 < frac.toInt))

/-- `integral`, `/repo/src/lib.rs:501-516`. -/
def integral (cfg : Cfg) (a : FP L P) (mode : RoundMode) : Res ε (BitVec L.bits) := do
  let c ← coef cfg L P
  let sign := SInt.signum a.inner
  let int ← SInt.div a.inner c
  let ab ← SInt.abs cfg a.inner
  let frac ← SInt.rem ab c
  let addSignedOne ← integralTest cfg c frac sign mode
  if addSignedOne then SInt.add cfg int sign else .ok int

/-- `from_decimal`, `/repo/src/lib.rs:668-680`. `exponent` is an `i32`; `exponent + PRECISION` is computed
exactly because `PRECISION` is small (`-PRECISION ≤ exponent ≤ 10` at that point). -/
def fromDecimal (cfg : Cfg) (mantissa : BitVec L.bits) (exponent : Int) : Res ConvErr (FP L P) := do
  if exponent < -(P : Int) ∨ 10 < exponent then .err ⟨"unsupported exponent"⟩
  else do
    let multiplier ← SInt.pow cfg (BitVec.ofInt L.bits 10) (exponent + P).toNat
    let r ← ofOption ⟨"too big mantissa"⟩ (SInt.checkedMul mantissa multiplier)
    .ok (fromBits r)

/-- `floor`, `/repo/src/lib.rs:520-522`. -/
def floor (cfg : Cfg) (a : FP L P) : Res ε (FP L P) := do
  let i ← integral cfg a .floor
  unwrap (fromDecimal cfg i 0)

/-- `ceil`, `/repo/src/lib.rs:526-528`. -/
def ceil (cfg : Cfg) (a : FP L P) : Res ε (FP L P) := do
  let i ← integral cfg a .ceil
  unwrap (fromDecimal cfg i 0)

/-- `round`, `/repo/src/lib.rs:532-534`. -/
def round (cfg : Cfg) (a : FP L P) : Res ε (FP L P) := do
  let i ← integral cfg a .nearest
  unwrap (fromDecimal cfg i 0)

/-- `round_towards_zero_by`, `/repo/src/lib.rs:538-543`. -/
def roundTowardsZeroBy (a precision : FP L P) : FP L P :=
  match (SInt.checkedDiv a.inner precision.inner).bind
      (fun v => SInt.checkedMul v precision.inner) with
  | some r => fromBits r
  | none => a

/-- `power_table::$layout`, `/repo/src/lib.rs:557,560`. -/
def powerTable : Layout → List Int
  | .i16 => PowerTable.i16
  | .i32 => PowerTable.i32
  | .i64 => PowerTable.i64
  | .i128 => PowerTable.i128

/-- `next_power_of_ten` for a non-negative argument, `/repo/src/lib.rs:554-569`. -/
def nextPowerOfTenNonneg (a : FP L P) : Res ArithErr (FP L P) := do
  let lz := SInt.leadingZeros a.inner
  rustAssert (decide (0 < lz))
  let value ← idx (powerTable L) lz
  let value ← if value < a.inner.toInt then idx (powerTable L) (lz - 1) else .ok value
  if value = 0 then .err .overflow else .ok (fromBits (BitVec.ofInt _ value))

/-- `next_power_of_ten`, `/repo/src/lib.rs:549-570`: a negative argument is negated (which makes it
positive, so the recursion has depth one). -/
def nextPowerOfTen (a : FP L P) : Res ArithErr (FP L P) := do
  if a.inner.toInt < 0 then do
    let n ← cneg a
    let r ← nextPowerOfTenNonneg n
    cneg r
  else nextPowerOfTenNonneg a

/-- `add_one` of `rsqrt`, `/repo/src/lib.rs:622-635`. -/
def rsqrtTest (cfg : Cfg) (p : PromOps L.bits) (squared lo : p.T) (mode : RoundMode) :
    Res ArithErr Bool :=
  match mode with
  | .floor => .ok false
  | .nearest => do
    let lo2 ← p.mul cfg lo lo
    let h ← p.add cfg lo2 lo
    let h ← p.add cfg h lo
    let hi2 ← p.add cfg h p.one
    let l ← p.sub cfg squared lo2
    let r ← p.sub cfg hi2 squared
    .ok (p.ge l r)
  | .ceil => do
    let lo2 ← p.mul cfg lo lo
    .ok (!(p.eq lo2 squared))

/-- `rsqrt`, `/repo/src/lib.rs:612-644`. -/
def rsqrt (cfg : Cfg) (a : FP L P) (mode : RoundMode) : Res ArithErr (FP L P) := do
  if a.inner.toInt < 0 then .err .domainViolation
  else do
    let p := prom L
    let c ← coef cfg L P
    let squared ← p.mul cfg (p.ofL a.inner) (p.ofL c)
    let lo ← p.sqrt cfg squared
    let addOne ← rsqrtTest cfg p squared lo mode
    let lo ← unwrap (ofOption ArithErr.overflow (p.tryL lo))
    if addOne then do
      let r ← SInt.add cfg lo (BitVec.ofInt _ 1)
      .ok (fromBits r)
    else .ok (fromBits lo)

/-- The loop of `to_decimal`, `/repo/src/lib.rs:705-708`; `fuel` bounds the iterations. -/
def toDecimalLoop (maxExp : Int) : Nat → BitVec L.bits → Int → Res ε (BitVec L.bits × Int)
  | 0, _, _ => .fault .diverge
  | fuel + 1, m, e =>
    if e < maxExp then do
      let r ← SInt.rem m (BitVec.ofInt _ 10)
      if r.toInt = 0 then do
        let m' ← SInt.div m (BitVec.ofInt _ 10)
        toDecimalLoop maxExp fuel m' (e + 1)
      else .ok (m, e)
    else .ok (m, e)

/-- `to_decimal`, `/repo/src/lib.rs:694-711`. -/
def toDecimal (a : FP L P) (maxExp : Int) : Res ε (BitVec L.bits × Int) := do
  rustAssert (decide (-(P : Int) ≤ maxExp))
  if a.inner.toInt = 0 then .ok (BitVec.ofInt _ 0, if maxExp < 0 then maxExp else 0)
  else toDecimalLoop maxExp (L.bits + 1) a.inner (-(P : Int))

end FP

end Fixnum
