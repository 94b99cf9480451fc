import Verif.I256

/-!
# Integer square roots

Model of `/repo/src/ops/sqrt.rs`, of `Sqrt for U256` (`/repo/src/i256/u256.rs:799-825`) and of
`Sqrt for I256` (`/repo/src/i256/mod.rs:183-191`).

A value of a primitive integer type is represented here by its mathematical value (an `Int` in
the range of the type); every arithmetic operation goes through `IntTy.arith`, which checks or
wraps like the machine does.  `while` loops and the recursion carry a fuel argument; running out
of fuel is the outcome `diverge` and is proved not to happen.
-/

namespace Fixnum

open Res

variable {ε : Type}

/-- A primitive integer type of `impl_sqrt!(i8, u8, …, u128)`, `/repo/src/ops/sqrt.rs:92`. -/
structure IntTy where
  signed : Bool
  bits : Nat
deriving DecidableEq, Repr

namespace IntTy

/-- `MIN` of the type.  For `/repo/src/ops/sqrt.rs:20`. -/
def min (t : IntTy) : Int := if t.signed then -2 ^ (t.bits - 1) else 0
/-- `MAX` of the type.  For `/repo/src/ops/sqrt.rs:20`. -/
def max (t : IntTy) : Int := if t.signed then 2 ^ (t.bits - 1) - 1 else 2 ^ t.bits - 1

/-- Two's-complement wrap-around into the range of the type.  As in release builds at
`/repo/src/ops/sqrt.rs:74-76,85`. -/
def wrap (t : IntTy) (z : Int) : Int :=
  if t.signed then Int.bmod z (2 ^ t.bits) else z % 2 ^ t.bits

/-- An arithmetic operation whose exact result is `z`.  As at `/repo/src/ops/sqrt.rs:75,76,85`. -/
def arith (cfg : Cfg) (t : IntTy) (z : Int) : Res ε Int :=
  if t.min ≤ z ∧ z ≤ t.max then .ok z
  else if cfg.overflowChecks then .panic else .ok (t.wrap z)

end IntTy

/-- `x as f64` for an integer `x ≥ 0`, as an integer: exact below `2^53`, otherwise rounded to 53
significant bits, nearest, ties to even (IEEE-754).  Part of `guess`, `/repo/src/ops/sqrt.rs:37`. -/
def natToF64 (x : Nat) : Nat :=
  let e := Nat.log2 x
  if e < 53 then x
  else
    let u := 2 ^ (e - 52)
    let q := x / u
    let r := x % u
    if 2 * r < u ∨ (2 * r = u ∧ q % 2 = 0) then q * u else (q + 1) * u

/-- `x.sqrt() as int` for an `f64` holding the integer `x ≥ 1`: the correctly rounded square root
(53 significant bits) truncated to an integer.  With `k` fraction bits in the result's ulp,
`t = ⌊2^(k+1)·√x⌋` has one bit more than the significand and `(t + 1) / 2` is the significand
rounded to nearest (a tie `t/2` exactly half-way would need `x·4^(k+1)` to be an odd square).
Valid for `1 ≤ x ≤ 2^64`.  Part of `guess`, `/repo/src/ops/sqrt.rs:37`. -/
def f64SqrtTrunc (x : Nat) : Nat :=
  let k := 52 - Nat.log2 x / 2
  let t := Nat.sqrt (x * 4 ^ (k + 1))
  (t + 1) / 2 / 2 ^ k

/-- `guess`, `/repo/src/ops/sqrt.rs:34-50`. With `std`: `(x as f64).sqrt() as $int`; without:
`1 << ((log2_estimate(x) + 1) / 2)` where `log2_estimate` has `debug_assert!(x > 0)`. -/
def sqrtGuess (cfg : Cfg) (t : IntTy) (x : Int) : Res ε Int :=
  if cfg.std then .ok (f64SqrtTrunc (natToF64 x.toNat))
  else do
    debugAssert cfg (decide (0 < x))
    -- `bits - 1 - x.leading_zeros()` is the position of the top bit
    let l := Nat.log2 x.toNat
    .ok (t.wrap (2 ^ ((l + 1) / 2)))

/-- `next`, `/repo/src/ops/sqrt.rs:85`: `(self / x + x) >> 1`. Division by zero panics. -/
def sqrtNext (cfg : Cfg) (t : IntTy) (n x : Int) : Res ε Int := do
  if x = 0 then .panic
  else do
    let s ← IntTy.arith cfg t (n.tdiv x + x)
    .ok (s / 2)

/-- First loop of `fixpoint`, `/repo/src/ops/sqrt.rs:55-58`: `while x < xn { x = xn; xn = f(x); }`. -/
def fixpointUp (cfg : Cfg) (t : IntTy) (n : Int) : Nat → Int → Int → Res ε (Int × Int)
  | 0, _, _ => .fault .diverge
  | fuel + 1, x, xn =>
    if x < xn then do
      let y ← sqrtNext cfg t n xn
      fixpointUp cfg t n fuel xn y
    else .ok (x, xn)

/-- Second loop of `fixpoint`, `/repo/src/ops/sqrt.rs:59-62`: `while x > xn { x = xn; xn = f(x); }`. -/
def fixpointDown (cfg : Cfg) (t : IntTy) (n : Int) : Nat → Int → Int → Res ε Int
  | 0, _, _ => .fault .diverge
  | fuel + 1, x, xn =>
    if xn < x then do
      let y ← sqrtNext cfg t n xn
      fixpointDown cfg t n fuel xn y
    else .ok x

/-- `fixpoint`, `/repo/src/ops/sqrt.rs:53-64`. -/
def fixpoint (cfg : Cfg) (t : IntTy) (n x : Int) : Res ε Int := do
  let xn ← sqrtNext cfg t n x
  let st ← fixpointUp cfg t n 128 x xn
  fixpointDown cfg t n 128 st.1 st.2

/-- `sqrt` for the types of at most 64 bits, `/repo/src/ops/sqrt.rs:66-67,81-86`. -/
def sqrtSmall (cfg : Cfg) (t : IntTy) (n : Int) : Res ε Int := do
  debugAssert cfg (decide (0 ≤ n))
  if n < 4 then .ok (if 0 < n then 1 else 0)
  else do
    let g ← sqrtGuess cfg t n
    fixpoint cfg t n g

/-- `sqrt` for `i128`/`u128`, `/repo/src/ops/sqrt.rs:66-80`. -/
def sqrtWide (cfg : Cfg) (t : IntTy) : Nat → Int → Res ε Int
  | 0, _ => .fault .diverge
  | fuel + 1, n => do
    debugAssert cfg (decide (0 ≤ n))
    -- `u64::try_from(self)`
    if 0 ≤ n ∧ n < 2 ^ 64 then sqrtSmall cfg ⟨false, 64⟩ n
    else do
      let r ← sqrtWide cfg t fuel (n / 4)
      let lo := t.wrap (r * 2)
      let hi ← IntTy.arith cfg t (lo + 1)
      let sq ← IntTy.arith cfg t (hi * hi)
      .ok (if sq ≤ n then hi else lo)

/-- `Sqrt::sqrt` for a primitive type, `/repo/src/ops/sqrt.rs:28-87`. -/
def sqrtPrim (cfg : Cfg) (t : IntTy) (n : Int) : Res ε Int :=
  if 64 < t.bits then sqrtWide cfg t 128 n else sqrtSmall cfg t n

/-- `Sqrt for U256`, `/repo/src/i256/u256.rs:799-825`. -/
def U256.sqrt (cfg : Cfg) : Nat → U256 → Res ε U256
  | 0, _ => .fault .diverge
  | fuel + 1, x =>
    match U256.tryToU128 x with
    | some v => do
      let r ← sqrtPrim cfg ⟨false, 128⟩ v.toNat
      .ok (U256.ofU128 (BitVec.ofInt 128 r))
    | none => do
      let y ← U256.shr cfg x 2
      let r ← U256.sqrt cfg fuel y
      let lo ← U256.shl cfg r 1
      let hi : U256 := { lo with w0 := lo.w0 ||| 1 }
      let sq ← U256.overflowingMul cfg hi hi
      .ok (if U256.cmp sq.1 x ≠ .gt then hi else lo)

/-- `Sqrt for I256`, `/repo/src/i256/mod.rs:183-191`. -/
def I256.sqrt (cfg : Cfg) (x : I256) : Res ε I256 := do
  debugAssert cfg (decide (I256.cmp x I256.zero ≠ .lt))
  let r ← U256.sqrt cfg 128 x.inner
  .ok ⟨r⟩

end Fixnum
