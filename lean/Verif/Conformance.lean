import Verif.FixedPoint
import Verif.Strings
import Verif.Literal
import Verif.FloatOps
import Verif.Float
import Verif.Serde
import Verif.Derived

/-!
# The crate's own tests, run on the model

`/repo/tests/it/*.rs` and the unit tests of `/repo/src/i256` state results that were obtained from
the real code.  Here the same cases are evaluated by the kernel on the model.  This proves nothing
about all inputs; it is evidence that the model was transcribed correctly.

One definition per `test_fixed_point!` block gives the body of the block (the Rust asserts in the
same order), a second one the list of its cases.  As in the macro (`/repo/tests/it/main.rs:2-103`) a
case of section `all` must pass for `FixedPoint<i64, U9>` and `FixedPoint<i128, U18>`, a case of
section `fp64` or `fp128` must pass for one of them and fail for the other, where the arguments are
evaluated as part of the case.  Floating point literals are given by their bit patterns.
Everything is evaluated for two builds: with overflow checks, debug assertions and the feature `std`,
and without all three.  The property-based tests are covered by C26, C30 and C64.
-/

namespace Fixnum.Conformance

open Res

/-- A literal as a list of characters. -/
macro:max "c!" s:str : term => do
  let cs := s.getString.toList.toArray.map Lean.Syntax.mkCharLit
  `(([$cs,*] : List Char))

variable {ε : Type} {L : Layout} {P : Nat}

/-- The builds in which the tests are run. -/
def builds : List Cfg :=
  [⟨true, true, true, true⟩, ⟨false, false, false, true⟩]

/-- Forget which error was returned. -/
def hush {α : Type} (r : Res ε α) : Res Unit α := mapErr r fun _ => ()

/-- `fp!(text)`, `/repo/tests/it/main.rs:19-26`. -/
def lit (cfg : Cfg) (s : List Char) : Res Unit (FP L P) := hush (FP.fromStrExact cfg s)

/-- `FixedPoint::ONE`, as at `/repo/tests/it/ops.rs:46-48`. -/
def oneOf (cfg : Cfg) : Res Unit (FP L P) := FP.one cfg

/-- A number by its raw value. -/
def rawOf (z : Int) : FP L P := FP.fromBits (BitVec.ofInt _ z)

/-- `x.cneg()?`. -/
def negOf (r : Res Unit (FP L P)) : Res Unit (FP L P) := do hush (FP.cneg (← r))

/-- `FixedPoint::MAX.rsqrt(Floor)?.integral(Floor).try_into()?`. -/
def rootOfMax (cfg : Cfg) : Res Unit (FP L P) := do
  let r ← hush (FP.rsqrt cfg (FP.max : FP L P) .floor)
  let i ← FP.integral cfg r .floor
  hush (FP.tryFromInt cfg i.toInt)

/-- `assert_eq!(r?, e)`, as throughout `/repo/tests/it/ops.rs`. -/
def gives {α : Type} [DecidableEq α] (r : Res ε α) (e : α) : Res Unit Unit := do
  let a ← hush r
  rustAssert (decide (a = e))

/-- `assert_eq!(r, Err(e))`, as throughout `/repo/tests/it/ops.rs`. -/
def fails {α : Type} [DecidableEq ε] (r : Res ε α) (e : ε) : Res Unit Unit :=
  match r with
  | .err e' => rustAssert (decide (e' = e))
  | .ok _ => .panic
  | .fault f => .fault f

/-- `assert!(r.is_err())`, as at `/repo/tests/it/convert_str.rs:123`. -/
def isErr {α : Type} (r : Res ε α) : Res Unit Unit :=
  match r with
  | .err _ => .ok ()
  | .ok _ => .panic
  | .fault f => .fault f

/-- A case passes if its body returns `Ok(())`, `/repo/tests/it/main.rs:149-168`. -/
def passes (c : Res Unit Unit) : Bool :=
  match c with
  | .ok () => true
  | _ => false

/-- Section `all`, `/repo/tests/it/main.rs:40-51`. -/
def inAll (c : (L : Layout) → (P : Nat) → Cfg → List (Res Unit Unit)) : Bool :=
  builds.all fun cfg => (c .i64 9 cfg).all passes && (c .i128 18 cfg).all passes

/-- Section `fp64`, `/repo/tests/it/main.rs:52-63`. -/
def in64 (c : (L : Layout) → (P : Nat) → Cfg → List (Res Unit Unit)) : Bool :=
  builds.all fun cfg => (c .i64 9 cfg).all passes && (c .i128 18 cfg).all fun t => !passes t

/-- Section `fp128`, `/repo/tests/it/main.rs:64-75`. -/
def in128 (c : (L : Layout) → (P : Nat) → Cfg → List (Res Unit Unit)) : Bool :=
  builds.all fun cfg => (c .i128 18 cfg).all passes && (c .i64 9 cfg).all fun t => !passes t

/-- An integer argument of the layout type. -/
abbrev int (L : Layout) (z : Int) : BitVec L.bits := BitVec.ofInt L.bits z

/-- An argument `fp!(…)`, which may fail to evaluate, `/repo/tests/it/main.rs:19-26`. -/
abbrev N (L : Layout) (P : Nat) := Res Unit (FP L P)

/-! ## `/repo/tests/it/ops.rs` -/

/-- Body of `cmul_overflow`, `/repo/tests/it/ops.rs:11-22`. -/
def cmulOverflowBody (L : Layout) (P : Nat) (_cfg : Cfg) (_ : Unit) : Res Unit Unit := do
  fails (FP.cmul (FP.max : FP L P) (int L (iMax L.bits))) .overflow
  fails (FP.cmul (FP.max : FP L P) (int L (iMin L.bits))) .overflow

/-- Its cases, section `all`, `/repo/tests/it/ops.rs:11-22`. -/
def cmulOverflowAll (L : Layout) (P : Nat) (cfg : Cfg) : List (Res Unit Unit) := [
    cmulOverflowBody L P cfg ()]

theorem conf_cmul_overflow : inAll cmulOverflowAll = true := by
  decide +kernel

/-- Body of `rmul_exact`, `/repo/tests/it/ops.rs:25-66`. -/
def rmulExactBody (L : Layout) (P : Nat) (cfg : Cfg) (a b expected : N L P) : Res Unit Unit := do
  let a ← a
  let b ← b
  let expected ← expected
  gives (FP.rmul cfg a b .floor) expected
  gives (FP.rmul cfg a b .nearest) expected
  gives (FP.rmul cfg a b .ceil) expected
  gives (FP.rmul cfg b a .floor) expected
  gives (FP.rmul cfg b a .nearest) expected
  gives (FP.rmul cfg b a .ceil) expected

/-- Its cases, section `all`, `/repo/tests/it/ops.rs:25-66`. -/
def rmulExactAll (L : Layout) (P : Nat) (cfg : Cfg) : List (Res Unit Unit) := [
    rmulExactBody L P cfg (lit cfg c!"525") (lit cfg c!"10") (lit cfg c!"5250"),
    rmulExactBody L P cfg (lit cfg c!"-525") (lit cfg c!"10") (lit cfg c!"-5250"),
    rmulExactBody L P cfg (lit cfg c!"-525") (lit cfg c!"-10") (lit cfg c!"5250"),
    rmulExactBody L P cfg (lit cfg c!"525") (lit cfg c!"-10") (lit cfg c!"-5250"),
    rmulExactBody L P cfg (lit cfg c!"525") (lit cfg c!"0.0001") (lit cfg c!"0.0525"),
    rmulExactBody L P cfg (lit cfg c!"-525") (lit cfg c!"0.0001") (lit cfg c!"-0.0525"),
    rmulExactBody L P cfg (lit cfg c!"-525") (lit cfg c!"-0.0001") (lit cfg c!"0.0525"),
    rmulExactBody L P cfg (.ok FP.max) (oneOf cfg) (.ok FP.max),
    rmulExactBody L P cfg (.ok FP.min) (oneOf cfg) (.ok FP.min),
    rmulExactBody L P cfg (oneOf cfg) (lit cfg c!"0.000000001") (lit cfg c!"0.000000001"),
    rmulExactBody L P cfg (lit cfg c!"-1") (lit cfg c!"-0.000000001") (lit cfg c!"0.000000001"),
    rmulExactBody L P cfg (.ok (rawOf (iMax L.bits / 10 * 10))) (lit cfg c!"0.1")
      (.ok (rawOf (iMax L.bits / 10))),
    rmulExactBody L P cfg (.ok (rawOf (Int.tdiv (iMin L.bits) 10 * 10))) (lit cfg c!"0.1")
      (.ok (rawOf (Int.tdiv (iMin L.bits) 10)))]

/-- Its cases, section `fp128`, `/repo/tests/it/ops.rs:25-66`. -/
def rmulExact128 (L : Layout) (P : Nat) (cfg : Cfg) : List (Res Unit Unit) := [
    rmulExactBody L P cfg (lit cfg c!"13043817825.332782") (lit cfg c!"13043817825.332782")
      (lit cfg c!"170141183460469226191.989043859524")]

theorem conf_rmul_exact : inAll rmulExactAll = true ∧ in128 rmulExact128 = true := by
  decide +kernel

/-- Body of `rmul_round`, `/repo/tests/it/ops.rs:69-119`. -/
def rmulRoundBody (L : Layout) (P : Nat) (cfg : Cfg) (a b expFloor expNearest expCeil : N L P) : Res Unit Unit := do
  let a ← a
  let b ← b
  let expFloor ← expFloor
  let expNearest ← expNearest
  let expCeil ← expCeil
  gives (FP.rmul cfg a b .floor) expFloor
  gives (FP.rmul cfg a b .nearest) expNearest
  gives (FP.rmul cfg a b .ceil) expCeil
  gives (FP.rmul cfg b a .floor) expFloor
  gives (FP.rmul cfg b a .nearest) expNearest
  gives (FP.rmul cfg b a .ceil) expCeil
  let na ← hush (FP.cneg a)
  let nb ← hush (FP.cneg b)
  gives (FP.rmul cfg nb na .floor) expFloor
  gives (FP.rmul cfg nb na .nearest) expNearest
  gives (FP.rmul cfg nb na .ceil) expCeil

/-- Its cases, section `fp64`, `/repo/tests/it/ops.rs:69-119`. -/
def rmulRound64 (L : Layout) (P : Nat) (cfg : Cfg) : List (Res Unit Unit) := [
    rmulRoundBody L P cfg (lit cfg c!"0.1") (lit cfg c!"0.000000001") (lit cfg c!"0")
      (lit cfg c!"0") (lit cfg c!"0.000000001"),
    rmulRoundBody L P cfg (lit cfg c!"0.5") (lit cfg c!"0.000000001") (lit cfg c!"0")
      (lit cfg c!"0.000000001") (lit cfg c!"0.000000001"),
    rmulRoundBody L P cfg (lit cfg c!"0.9") (lit cfg c!"0.000000001") (lit cfg c!"0")
      (lit cfg c!"0.000000001") (lit cfg c!"0.000000001"),
    rmulRoundBody L P cfg (lit cfg c!"-0.1") (lit cfg c!"0.000000001")
      (lit cfg c!"-0.000000001") (lit cfg c!"0") (lit cfg c!"0"),
    rmulRoundBody L P cfg (lit cfg c!"-0.5") (lit cfg c!"0.000000001")
      (lit cfg c!"-0.000000001") (lit cfg c!"-0.000000001") (lit cfg c!"0"),
    rmulRoundBody L P cfg (lit cfg c!"-0.9") (lit cfg c!"0.000000001")
      (lit cfg c!"-0.000000001") (lit cfg c!"-0.000000001") (lit cfg c!"0"),
    rmulRoundBody L P cfg (lit cfg c!"0.000000001") (lit cfg c!"0.000000001") (lit cfg c!"0")
      (lit cfg c!"0") (lit cfg c!"0.000000001"),
    rmulRoundBody L P cfg (lit cfg c!"0.000000009") (lit cfg c!"0.000000001") (lit cfg c!"0")
      (lit cfg c!"0") (lit cfg c!"0.000000001"),
    rmulRoundBody L P cfg (lit cfg c!"-0.000000001") (lit cfg c!"0.000000001")
      (lit cfg c!"-0.000000001") (lit cfg c!"0") (lit cfg c!"0"),
    rmulRoundBody L P cfg (lit cfg c!"-0.000000009") (lit cfg c!"0.000000001")
      (lit cfg c!"-0.000000001") (lit cfg c!"0") (lit cfg c!"0")]

/-- Its cases, section `fp128`, `/repo/tests/it/ops.rs:69-119`. -/
def rmulRound128 (L : Layout) (P : Nat) (cfg : Cfg) : List (Res Unit Unit) := [
    rmulRoundBody L P cfg (lit cfg c!"0.1") (lit cfg c!"0.000000000000000001") (lit cfg c!"0")
      (lit cfg c!"0") (lit cfg c!"0.000000000000000001"),
    rmulRoundBody L P cfg (lit cfg c!"0.5") (lit cfg c!"0.000000000000000001") (lit cfg c!"0")
      (lit cfg c!"0.000000000000000001") (lit cfg c!"0.000000000000000001"),
    rmulRoundBody L P cfg (lit cfg c!"0.9") (lit cfg c!"0.000000000000000001") (lit cfg c!"0")
      (lit cfg c!"0.000000000000000001") (lit cfg c!"0.000000000000000001"),
    rmulRoundBody L P cfg (lit cfg c!"-0.1") (lit cfg c!"0.000000000000000001")
      (lit cfg c!"-0.000000000000000001") (lit cfg c!"0") (lit cfg c!"0"),
    rmulRoundBody L P cfg (lit cfg c!"-0.5") (lit cfg c!"0.000000000000000001")
      (lit cfg c!"-0.000000000000000001") (lit cfg c!"-0.000000000000000001") (lit cfg c!"0"),
    rmulRoundBody L P cfg (lit cfg c!"-0.9") (lit cfg c!"0.000000000000000001")
      (lit cfg c!"-0.000000000000000001") (lit cfg c!"-0.000000000000000001") (lit cfg c!"0"),
    rmulRoundBody L P cfg (lit cfg c!"0.000000000000000001") (lit cfg c!"0.000000000000000001")
      (lit cfg c!"0") (lit cfg c!"0") (lit cfg c!"0.000000000000000001"),
    rmulRoundBody L P cfg (lit cfg c!"0.000000000000000009") (lit cfg c!"0.000000000000000001")
      (lit cfg c!"0") (lit cfg c!"0") (lit cfg c!"0.000000000000000001"),
    rmulRoundBody L P cfg (lit cfg c!"-0.000000000000000001") (lit cfg c!"0.000000000000000001")
      (lit cfg c!"-0.000000000000000001") (lit cfg c!"0") (lit cfg c!"0"),
    rmulRoundBody L P cfg (lit cfg c!"-0.000000000000000009") (lit cfg c!"0.000000000000000001")
      (lit cfg c!"-0.000000000000000001") (lit cfg c!"0") (lit cfg c!"0")]

theorem conf_rmul_round : in64 rmulRound64 = true ∧ in128 rmulRound128 = true := by
  decide +kernel

/-- Body of `rmul_overflow`, `/repo/tests/it/ops.rs:122-141`. -/
def rmulOverflowBody (L : Layout) (P : Nat) (cfg : Cfg) (a b : N L P) : Res Unit Unit := do
  let a ← a
  let b ← b
  fails (FP.rmul cfg a b .ceil) .overflow

/-- Its cases, section `all`, `/repo/tests/it/ops.rs:122-141`. -/
def rmulOverflowAll (L : Layout) (P : Nat) (cfg : Cfg) : List (Res Unit Unit) := [
    rmulOverflowBody L P cfg (.ok FP.max) (lit cfg c!"1.000000001")]

/-- Its cases, section `fp64`, `/repo/tests/it/ops.rs:122-141`. -/
def rmulOverflow64 (L : Layout) (P : Nat) (cfg : Cfg) : List (Res Unit Unit) := [
    rmulOverflowBody L P cfg (lit cfg c!"96038.388349945") (lit cfg c!"96038.388349945"),
    rmulOverflowBody L P cfg (lit cfg c!"-97000") (lit cfg c!"96100")]

/-- Its cases, section `fp128`, `/repo/tests/it/ops.rs:122-141`. -/
def rmulOverflow128 (L : Layout) (P : Nat) (cfg : Cfg) : List (Res Unit Unit) := [
    rmulOverflowBody L P cfg (.ok FP.max) (lit cfg c!"1.000000000000000001"),
    rmulOverflowBody L P cfg (lit cfg c!"13043817825.332783") (lit cfg c!"13043817825.332783"),
    rmulOverflowBody L P cfg (lit cfg c!"-13043817826") (lit cfg c!"13043817826")]

theorem conf_rmul_overflow : 
    inAll rmulOverflowAll = true ∧ in64 rmulOverflow64 = true ∧ in128 rmulOverflow128 = true := by
  decide +kernel

/-- Body of `rdiv_exact`, `/repo/tests/it/ops.rs:144-167`. -/
def rdivExactBody (L : Layout) (P : Nat) (cfg : Cfg) (a b expected : N L P) : Res Unit Unit := do
  let a ← a
  let b ← b
  let expected ← expected
  gives (FP.rdiv cfg a b .ceil) expected
  gives (FP.rdiv cfg a b .nearest) expected
  gives (FP.rdiv cfg a b .floor) expected

/-- Its cases, section `all`, `/repo/tests/it/ops.rs:144-167`. -/
def rdivExactAll (L : Layout) (P : Nat) (cfg : Cfg) : List (Res Unit Unit) := [
    rdivExactBody L P cfg (.ok FP.max) (.ok FP.max) (oneOf cfg),
    rdivExactBody L P cfg (lit cfg c!"5") (lit cfg c!"2") (lit cfg c!"2.5"),
    rdivExactBody L P cfg (lit cfg c!"-5") (lit cfg c!"2") (lit cfg c!"-2.5"),
    rdivExactBody L P cfg (lit cfg c!"5") (lit cfg c!"-2") (lit cfg c!"-2.5"),
    rdivExactBody L P cfg (lit cfg c!"-5") (lit cfg c!"-2") (lit cfg c!"2.5"),
    rdivExactBody L P cfg (lit cfg c!"5") (lit cfg c!"0.2") (lit cfg c!"25"),
    rdivExactBody L P cfg (lit cfg c!"0.00000001") (lit cfg c!"10") (lit cfg c!"0.000000001"),
    rdivExactBody L P cfg (lit cfg c!"0.000000001") (lit cfg c!"0.1") (lit cfg c!"0.00000001")]

/-- Its cases, section `fp128`, `/repo/tests/it/ops.rs:144-167`. -/
def rdivExact128 (L : Layout) (P : Nat) (cfg : Cfg) : List (Res Unit Unit) := [
    rdivExactBody L P cfg (lit cfg c!"0.00000000000000001") (lit cfg c!"10")
      (lit cfg c!"0.000000000000000001"),
    rdivExactBody L P cfg (lit cfg c!"0.000000000000000001") (lit cfg c!"0.1")
      (lit cfg c!"0.00000000000000001")]

theorem conf_rdiv_exact : inAll rdivExactAll = true ∧ in128 rdivExact128 = true := by
  decide +kernel

/-- Body of `rdiv_by_layout`, `/repo/tests/it/ops.rs:170-225`. -/
def rdivByLayoutBody (L : Layout) (P : Nat) (cfg : Cfg) (a : N L P) (b : Int) (expFloor expNearest expCeil : N L P) : Res Unit Unit := do
  let a ← a
  let expFloor ← expFloor
  let expNearest ← expNearest
  let expCeil ← expCeil
  gives (FP.rdivInt cfg a (int L b) .ceil) expCeil
  gives (FP.rdivInt cfg a (int L b) .nearest) expNearest
  gives (FP.rdivInt cfg a (int L b) .floor) expFloor

/-- Its cases, section `all`, `/repo/tests/it/ops.rs:170-225`. -/
def rdivByLayoutAll (L : Layout) (P : Nat) (cfg : Cfg) : List (Res Unit Unit) := [
    rdivByLayoutBody L P cfg (lit cfg c!"2.4") 2 (lit cfg c!"1.2") (lit cfg c!"1.2")
      (lit cfg c!"1.2"),
    rdivByLayoutBody L P cfg (lit cfg c!"0") 5 (lit cfg c!"0") (lit cfg c!"0") (lit cfg c!"0")]

/-- Its cases, section `fp64`, `/repo/tests/it/ops.rs:170-225`. -/
def rdivByLayout64 (L : Layout) (P : Nat) (cfg : Cfg) : List (Res Unit Unit) := [
    rdivByLayoutBody L P cfg (lit cfg c!"7") 3 (lit cfg c!"2.333333333")
      (lit cfg c!"2.333333333") (lit cfg c!"2.333333334"),
    rdivByLayoutBody L P cfg (lit cfg c!"-7") 3 (lit cfg c!"-2.333333334")
      (lit cfg c!"-2.333333333") (lit cfg c!"-2.333333333"),
    rdivByLayoutBody L P cfg (lit cfg c!"-7") (-3) (lit cfg c!"2.333333333")
      (lit cfg c!"2.333333333") (lit cfg c!"2.333333334"),
    rdivByLayoutBody L P cfg (lit cfg c!"7") (-3) (lit cfg c!"-2.333333334")
      (lit cfg c!"-2.333333333") (lit cfg c!"-2.333333333"),
    rdivByLayoutBody L P cfg (lit cfg c!"0.000000003") 7 (lit cfg c!"0") (lit cfg c!"0")
      (lit cfg c!"0.000000001"),
    rdivByLayoutBody L P cfg (lit cfg c!"0.000000001") 7 (lit cfg c!"0") (lit cfg c!"0")
      (lit cfg c!"0.000000001"),
    rdivByLayoutBody L P cfg (lit cfg c!"14") 3 (lit cfg c!"4.666666666")
      (lit cfg c!"4.666666667") (lit cfg c!"4.666666667"),
    rdivByLayoutBody L P cfg (lit cfg c!"-14") 3 (lit cfg c!"-4.666666667")
      (lit cfg c!"-4.666666667") (lit cfg c!"-4.666666666"),
    rdivByLayoutBody L P cfg (lit cfg c!"-14") (-3) (lit cfg c!"4.666666666")
      (lit cfg c!"4.666666667") (lit cfg c!"4.666666667"),
    rdivByLayoutBody L P cfg (lit cfg c!"14") (-3) (lit cfg c!"-4.666666667")
      (lit cfg c!"-4.666666667") (lit cfg c!"-4.666666666"),
    rdivByLayoutBody L P cfg (lit cfg c!"0.000000003") 2 (lit cfg c!"0.000000001")
      (lit cfg c!"0.000000002") (lit cfg c!"0.000000002"),
    rdivByLayoutBody L P cfg (lit cfg c!"-0.000000003") (-2) (lit cfg c!"0.000000001")
      (lit cfg c!"0.000000002") (lit cfg c!"0.000000002"),
    rdivByLayoutBody L P cfg (lit cfg c!"-0.000000003") 2 (lit cfg c!"-0.000000002")
      (lit cfg c!"-0.000000002") (lit cfg c!"-0.000000001"),
    rdivByLayoutBody L P cfg (lit cfg c!"0.000000003") (-2) (lit cfg c!"-0.000000002")
      (lit cfg c!"-0.000000002") (lit cfg c!"-0.000000001")]

/-- Its cases, section `fp128`, `/repo/tests/it/ops.rs:170-225`. -/
def rdivByLayout128 (L : Layout) (P : Nat) (cfg : Cfg) : List (Res Unit Unit) := [
    rdivByLayoutBody L P cfg (lit cfg c!"7") 3 (lit cfg c!"2.333333333333333333")
      (lit cfg c!"2.333333333333333333") (lit cfg c!"2.333333333333333334"),
    rdivByLayoutBody L P cfg (lit cfg c!"-7") 3 (lit cfg c!"-2.333333333333333334")
      (lit cfg c!"-2.333333333333333333") (lit cfg c!"-2.333333333333333333"),
    rdivByLayoutBody L P cfg (lit cfg c!"-7") (-3) (lit cfg c!"2.333333333333333333")
      (lit cfg c!"2.333333333333333333") (lit cfg c!"2.333333333333333334"),
    rdivByLayoutBody L P cfg (lit cfg c!"7") (-3) (lit cfg c!"-2.333333333333333334")
      (lit cfg c!"-2.333333333333333333") (lit cfg c!"-2.333333333333333333"),
    rdivByLayoutBody L P cfg (lit cfg c!"0.000000000000000003") 7 (lit cfg c!"0")
      (lit cfg c!"0") (lit cfg c!"0.000000000000000001"),
    rdivByLayoutBody L P cfg (lit cfg c!"0.000000000000000001") 7 (lit cfg c!"0")
      (lit cfg c!"0") (lit cfg c!"0.000000000000000001"),
    rdivByLayoutBody L P cfg (lit cfg c!"14") 3 (lit cfg c!"4.666666666666666666")
      (lit cfg c!"4.666666666666666667") (lit cfg c!"4.666666666666666667"),
    rdivByLayoutBody L P cfg (lit cfg c!"-14") 3 (lit cfg c!"-4.666666666666666667")
      (lit cfg c!"-4.666666666666666667") (lit cfg c!"-4.666666666666666666"),
    rdivByLayoutBody L P cfg (lit cfg c!"-14") (-3) (lit cfg c!"4.666666666666666666")
      (lit cfg c!"4.666666666666666667") (lit cfg c!"4.666666666666666667"),
    rdivByLayoutBody L P cfg (lit cfg c!"14") (-3) (lit cfg c!"-4.666666666666666667")
      (lit cfg c!"-4.666666666666666667") (lit cfg c!"-4.666666666666666666"),
    rdivByLayoutBody L P cfg (lit cfg c!"0.000000000000000003") 2
      (lit cfg c!"0.000000000000000001") (lit cfg c!"0.000000000000000002")
      (lit cfg c!"0.000000000000000002"),
    rdivByLayoutBody L P cfg (lit cfg c!"-0.000000000000000003") (-2)
      (lit cfg c!"0.000000000000000001") (lit cfg c!"0.000000000000000002")
      (lit cfg c!"0.000000000000000002"),
    rdivByLayoutBody L P cfg (lit cfg c!"-0.000000000000000003") 2
      (lit cfg c!"-0.000000000000000002") (lit cfg c!"-0.000000000000000002")
      (lit cfg c!"-0.000000000000000001"),
    rdivByLayoutBody L P cfg (lit cfg c!"0.000000000000000003") (-2)
      (lit cfg c!"-0.000000000000000002") (lit cfg c!"-0.000000000000000002")
      (lit cfg c!"-0.000000000000000001")]

theorem conf_rdiv_by_layout : 
    inAll rdivByLayoutAll = true ∧ in64 rdivByLayout64 = true ∧ in128 rdivByLayout128 = true := by
  decide +kernel

/-- Body of `rdiv_round`, `/repo/tests/it/ops.rs:228-278`. -/
def rdivRoundBody (L : Layout) (P : Nat) (cfg : Cfg) (a b expCeil expNearest expFloor : N L P) : Res Unit Unit := do
  let a ← a
  let b ← b
  let expCeil ← expCeil
  let expNearest ← expNearest
  let expFloor ← expFloor
  gives (FP.rdiv cfg a b .ceil) expCeil
  gives (FP.rdiv cfg a b .nearest) expNearest
  gives (FP.rdiv cfg a b .floor) expFloor

/-- Its cases, section `all`, `/repo/tests/it/ops.rs:228-278`. -/
def rdivRoundAll (L : Layout) (P : Nat) (cfg : Cfg) : List (Res Unit Unit) := [
    rdivRoundBody L P cfg (lit cfg c!"0") (lit cfg c!"42") (lit cfg c!"0") (lit cfg c!"0")
      (lit cfg c!"0")]

/-- Its cases, section `fp64`, `/repo/tests/it/ops.rs:228-278`. -/
def rdivRound64 (L : Layout) (P : Nat) (cfg : Cfg) : List (Res Unit Unit) := [
    rdivRoundBody L P cfg (lit cfg c!"100") (lit cfg c!"3") (lit cfg c!"33.333333334")
      (lit cfg c!"33.333333333") (lit cfg c!"33.333333333"),
    rdivRoundBody L P cfg (lit cfg c!"-100") (lit cfg c!"-3") (lit cfg c!"33.333333334")
      (lit cfg c!"33.333333333") (lit cfg c!"33.333333333"),
    rdivRoundBody L P cfg (lit cfg c!"-100") (lit cfg c!"3") (lit cfg c!"-33.333333333")
      (lit cfg c!"-33.333333333") (lit cfg c!"-33.333333334"),
    rdivRoundBody L P cfg (lit cfg c!"100") (lit cfg c!"-3") (lit cfg c!"-33.333333333")
      (lit cfg c!"-33.333333333") (lit cfg c!"-33.333333334"),
    rdivRoundBody L P cfg (lit cfg c!"200") (lit cfg c!"3") (lit cfg c!"66.666666667")
      (lit cfg c!"66.666666667") (lit cfg c!"66.666666666"),
    rdivRoundBody L P cfg (lit cfg c!"-200") (lit cfg c!"-3") (lit cfg c!"66.666666667")
      (lit cfg c!"66.666666667") (lit cfg c!"66.666666666"),
    rdivRoundBody L P cfg (lit cfg c!"-200") (lit cfg c!"3") (lit cfg c!"-66.666666666")
      (lit cfg c!"-66.666666667") (lit cfg c!"-66.666666667"),
    rdivRoundBody L P cfg (lit cfg c!"200") (lit cfg c!"-3") (lit cfg c!"-66.666666666")
      (lit cfg c!"-66.666666667") (lit cfg c!"-66.666666667"),
    rdivRoundBody L P cfg (lit cfg c!"0.000000003") (lit cfg c!"2") (lit cfg c!"0.000000002")
      (lit cfg c!"0.000000002") (lit cfg c!"0.000000001"),
    rdivRoundBody L P cfg (lit cfg c!"-0.000000003") (lit cfg c!"-2") (lit cfg c!"0.000000002")
      (lit cfg c!"0.000000002") (lit cfg c!"0.000000001"),
    rdivRoundBody L P cfg (lit cfg c!"-0.000000003") (lit cfg c!"2") (lit cfg c!"-0.000000001")
      (lit cfg c!"-0.000000002") (lit cfg c!"-0.000000002"),
    rdivRoundBody L P cfg (lit cfg c!"0.000000003") (lit cfg c!"-2") (lit cfg c!"-0.000000001")
      (lit cfg c!"-0.000000002") (lit cfg c!"-0.000000002")]

/-- Its cases, section `fp128`, `/repo/tests/it/ops.rs:228-278`. -/
def rdivRound128 (L : Layout) (P : Nat) (cfg : Cfg) : List (Res Unit Unit) := [
    rdivRoundBody L P cfg (lit cfg c!"100") (lit cfg c!"3") (lit cfg c!"33.333333333333333334")
      (lit cfg c!"33.333333333333333333") (lit cfg c!"33.333333333333333333"),
    rdivRoundBody L P cfg (lit cfg c!"-100") (lit cfg c!"-3")
      (lit cfg c!"33.333333333333333334") (lit cfg c!"33.333333333333333333")
      (lit cfg c!"33.333333333333333333"),
    rdivRoundBody L P cfg (lit cfg c!"-100") (lit cfg c!"3")
      (lit cfg c!"-33.333333333333333333") (lit cfg c!"-33.333333333333333333")
      (lit cfg c!"-33.333333333333333334"),
    rdivRoundBody L P cfg (lit cfg c!"100") (lit cfg c!"-3")
      (lit cfg c!"-33.333333333333333333") (lit cfg c!"-33.333333333333333333")
      (lit cfg c!"-33.333333333333333334"),
    rdivRoundBody L P cfg (lit cfg c!"200") (lit cfg c!"3") (lit cfg c!"66.666666666666666667")
      (lit cfg c!"66.666666666666666667") (lit cfg c!"66.666666666666666666"),
    rdivRoundBody L P cfg (lit cfg c!"-200") (lit cfg c!"-3")
      (lit cfg c!"66.666666666666666667") (lit cfg c!"66.666666666666666667")
      (lit cfg c!"66.666666666666666666"),
    rdivRoundBody L P cfg (lit cfg c!"-200") (lit cfg c!"3")
      (lit cfg c!"-66.666666666666666666") (lit cfg c!"-66.666666666666666667")
      (lit cfg c!"-66.666666666666666667"),
    rdivRoundBody L P cfg (lit cfg c!"200") (lit cfg c!"-3")
      (lit cfg c!"-66.666666666666666666") (lit cfg c!"-66.666666666666666667")
      (lit cfg c!"-66.666666666666666667"),
    rdivRoundBody L P cfg (lit cfg c!"0.000000000000000003") (lit cfg c!"2")
      (lit cfg c!"0.000000000000000002") (lit cfg c!"0.000000000000000002")
      (lit cfg c!"0.000000000000000001"),
    rdivRoundBody L P cfg (lit cfg c!"-0.000000000000000003") (lit cfg c!"-2")
      (lit cfg c!"0.000000000000000002") (lit cfg c!"0.000000000000000002")
      (lit cfg c!"0.000000000000000001"),
    rdivRoundBody L P cfg (lit cfg c!"-0.000000000000000003") (lit cfg c!"2")
      (lit cfg c!"-0.000000000000000001") (lit cfg c!"-0.000000000000000002")
      (lit cfg c!"-0.000000000000000002"),
    rdivRoundBody L P cfg (lit cfg c!"0.000000000000000003") (lit cfg c!"-2")
      (lit cfg c!"-0.000000000000000001") (lit cfg c!"-0.000000000000000002")
      (lit cfg c!"-0.000000000000000002")]

theorem conf_rdiv_round : 
    inAll rdivRoundAll = true ∧ in64 rdivRound64 = true ∧ in128 rdivRound128 = true := by
  decide +kernel

/-- Body of `rdiv_layout`, `/repo/tests/it/ops.rs:281-304`. -/
def rdivLayoutBody (L : Layout) (_P : Nat) (cfg : Cfg) (a b expFloor expCeil : Int) : Res Unit Unit := do
  gives (SInt.rdiv cfg (int L a) (int L b) .floor) (int L expFloor)
  gives (SInt.rdiv cfg (int L a) (int L b) .ceil) (int L expCeil)
  gives (SInt.rdiv cfg (int L a) (int L (-b)) .floor) (int L (-expCeil))
  gives (SInt.rdiv cfg (int L (-a)) (int L b) .floor) (int L (-expCeil))
  gives (SInt.rdiv cfg (int L a) (int L (-b)) .ceil) (int L (-expFloor))
  gives (SInt.rdiv cfg (int L (-a)) (int L b) .ceil) (int L (-expFloor))
  gives (SInt.rdiv cfg (int L (-a)) (int L (-b)) .floor) (int L expFloor)
  gives (SInt.rdiv cfg (int L (-a)) (int L (-b)) .ceil) (int L expCeil)

/-- Its cases, section `all`, `/repo/tests/it/ops.rs:281-304`. -/
def rdivLayoutAll (L : Layout) (P : Nat) (cfg : Cfg) : List (Res Unit Unit) := [
    rdivLayoutBody L P cfg 5 2 2 3,
    rdivLayoutBody L P cfg 0 5 0 0]

theorem conf_rdiv_layout : inAll rdivLayoutAll = true := by
  decide +kernel

/-- Body of `rdiv_division_by_zero`, `/repo/tests/it/ops.rs:307-323`. -/
def rdivDivisionByZeroBody (L : Layout) (P : Nat) (cfg : Cfg) (x : N L P) : Res Unit Unit := do
  let x ← x
  fails (FP.rdiv cfg x FP.zero .floor) .divisionByZero
  fails (FP.rdiv cfg x FP.zero .ceil) .divisionByZero

/-- Its cases, section `all`, `/repo/tests/it/ops.rs:307-323`. -/
def rdivDivisionByZeroAll (L : Layout) (P : Nat) (cfg : Cfg) : List (Res Unit Unit) := [
    rdivDivisionByZeroBody L P cfg (lit cfg c!"0"),
    rdivDivisionByZeroBody L P cfg (lit cfg c!"1"),
    rdivDivisionByZeroBody L P cfg (lit cfg c!"-1"),
    rdivDivisionByZeroBody L P cfg (.ok FP.max),
    rdivDivisionByZeroBody L P cfg (.ok FP.min)]

theorem conf_rdiv_division_by_zero : inAll rdivDivisionByZeroAll = true := by
  decide +kernel

/-- Body of `rdiv_overflow`, `/repo/tests/it/ops.rs:326-342`. -/
def rdivOverflowBody (L : Layout) (P : Nat) (cfg : Cfg) (denominator : N L P) : Res Unit Unit := do
  let denominator ← denominator
  fails (FP.rdiv cfg FP.max denominator .ceil) .overflow

/-- Its cases, section `all`, `/repo/tests/it/ops.rs:326-342`. -/
def rdivOverflowAll (L : Layout) (P : Nat) (cfg : Cfg) : List (Res Unit Unit) := [
    rdivOverflowBody L P cfg (lit cfg c!"0.999999999")]

/-- Its cases, section `fp128`, `/repo/tests/it/ops.rs:326-342`. -/
def rdivOverflow128 (L : Layout) (P : Nat) (cfg : Cfg) : List (Res Unit Unit) := [
    rdivOverflowBody L P cfg (lit cfg c!"0.999999999999999999")]

theorem conf_rdiv_overflow : 
    inAll rdivOverflowAll = true ∧ in128 rdivOverflow128 = true := by
  decide +kernel

/-- Body of `float_mul`, `/repo/tests/it/ops.rs:345-362`. -/
def floatMulBody (L : Layout) (P : Nat) (cfg : Cfg) (a b expected : N L P) : Res Unit Unit := do
  let a ← a
  let b ← b
  let expected ← expected
  gives (FP.rmul cfg a b .ceil) expected

/-- Its cases, section `all`, `/repo/tests/it/ops.rs:345-362`. -/
def floatMulAll (L : Layout) (P : Nat) (cfg : Cfg) : List (Res Unit Unit) := [
    floatMulBody L P cfg (lit cfg c!"525") (lit cfg c!"10") (lit cfg c!"5250"),
    floatMulBody L P cfg (lit cfg c!"525") (lit cfg c!"0.0001") (lit cfg c!"0.0525"),
    floatMulBody L P cfg (.ok FP.max) (oneOf cfg) (.ok FP.max),
    floatMulBody L P cfg (.ok (rawOf (iMax L.bits / 10 * 10))) (lit cfg c!"0.1")
      (.ok (rawOf (iMax L.bits / 10)))]

theorem conf_float_mul : inAll floatMulAll = true := by
  decide +kernel

/-- Body of `float_mul_overflow`, `/repo/tests/it/ops.rs:365-380`. -/
def floatMulOverflowBody (L : Layout) (P : Nat) (cfg : Cfg) (a b : N L P) : Res Unit Unit := do
  let a ← a
  let b ← b
  isErr (FP.rmul cfg a b .ceil)

/-- Its cases, section `fp64`, `/repo/tests/it/ops.rs:365-380`. -/
def floatMulOverflow64 (L : Layout) (P : Nat) (cfg : Cfg) : List (Res Unit Unit) := [
    floatMulOverflowBody L P cfg (lit cfg c!"140000") (lit cfg c!"140000"),
    floatMulOverflowBody L P cfg (lit cfg c!"-140000") (lit cfg c!"140000")]

/-- Its cases, section `fp128`, `/repo/tests/it/ops.rs:365-380`. -/
def floatMulOverflow128 (L : Layout) (P : Nat) (cfg : Cfg) : List (Res Unit Unit) := [
    floatMulOverflowBody L P cfg (lit cfg c!"13043817826") (lit cfg c!"13043817825"),
    floatMulOverflowBody L P cfg (lit cfg c!"-13043817826") (lit cfg c!"13043817825")]

theorem conf_float_mul_overflow : 
    in64 floatMulOverflow64 = true ∧ in128 floatMulOverflow128 = true := by
  decide +kernel

/-- Body of `half_sum_exact`, `/repo/tests/it/ops.rs:383-423`. -/
def halfSumExactBody (L : Layout) (P : Nat) (cfg : Cfg) (expected : N L P) : Res Unit Unit := do
  let expected ← expected
  gives (FP.halfSum cfg expected expected .floor : N L P) expected
  gives (FP.halfSum cfg expected expected .ceil : N L P) expected

/-- Its cases, section `all`, `/repo/tests/it/ops.rs:383-423`. -/
def halfSumExactAll (L : Layout) (P : Nat) (cfg : Cfg) : List (Res Unit Unit) := [
    halfSumExactBody L P cfg (lit cfg c!"0"),
    halfSumExactBody L P cfg (lit cfg c!"1"),
    halfSumExactBody L P cfg (lit cfg c!"-1"),
    halfSumExactBody L P cfg (.ok FP.max),
    halfSumExactBody L P cfg (.ok FP.min)]

theorem conf_half_sum_exact : inAll halfSumExactAll = true := by
  decide +kernel

/-- Body of `half_sum_exact`, block 2, `/repo/tests/it/ops.rs:383-423`. -/
def halfSumExact2Body (L : Layout) (P : Nat) (cfg : Cfg) (a b expected : N L P) : Res Unit Unit := do
  let a ← a
  let b ← b
  let expected ← expected
  gives (FP.halfSum cfg a b .floor : N L P) expected
  gives (FP.halfSum cfg b a .floor : N L P) expected
  gives (FP.halfSum cfg a b .ceil : N L P) expected
  gives (FP.halfSum cfg b a .ceil : N L P) expected

/-- Its cases, section `all`, `/repo/tests/it/ops.rs:383-423`. -/
def halfSumExact2All (L : Layout) (P : Nat) (cfg : Cfg) : List (Res Unit Unit) := [
    halfSumExact2Body L P cfg (lit cfg c!"1") (lit cfg c!"3") (lit cfg c!"2"),
    halfSumExact2Body L P cfg (lit cfg c!"1") (lit cfg c!"2") (lit cfg c!"1.5"),
    halfSumExact2Body L P cfg (lit cfg c!"7.123456789") (lit cfg c!"7.123456783")
      (lit cfg c!"7.123456786"),
    halfSumExact2Body L P cfg (lit cfg c!"9000") (lit cfg c!"9050") (lit cfg c!"9025"),
    halfSumExact2Body L P cfg (lit cfg c!"9000") (lit cfg c!"-9000") (lit cfg c!"0"),
    halfSumExact2Body L P cfg (lit cfg c!"9000000000") (lit cfg c!"9000000002")
      (lit cfg c!"9000000001"),
    halfSumExact2Body L P cfg (lit cfg c!"9000000000.000000001")
      (lit cfg c!"-9000000000.000000005") (lit cfg c!"-0.000000002"),
    halfSumExact2Body L P cfg (.ok FP.max) (hush (FP.cadd FP.min FP.epsilon)) (lit cfg c!"0")]

/-- Its cases, section `fp128`, `/repo/tests/it/ops.rs:383-423`. -/
def halfSumExact2128 (L : Layout) (P : Nat) (cfg : Cfg) : List (Res Unit Unit) := [
    halfSumExact2Body L P cfg (lit cfg c!"7.123456789123456789")
      (lit cfg c!"7.123456789123456783") (lit cfg c!"7.123456789123456786")]

theorem conf_half_sum_exact_2 : 
    inAll halfSumExact2All = true ∧ in128 halfSumExact2128 = true := by
  decide +kernel

/-- Body of `half_sum_rounded`, `/repo/tests/it/ops.rs:426-452`. -/
def halfSumRoundedBody (L : Layout) (P : Nat) (cfg : Cfg) (a b expFloor expCeil : N L P) : Res Unit Unit := do
  let a ← a
  let b ← b
  let expFloor ← expFloor
  let expCeil ← expCeil
  gives (FP.halfSum cfg a b .floor : N L P) expFloor
  gives (FP.halfSum cfg b a .floor : N L P) expFloor
  gives (FP.halfSum cfg a b .ceil : N L P) expCeil
  gives (FP.halfSum cfg b a .ceil : N L P) expCeil

/-- Its cases, section `all`, `/repo/tests/it/ops.rs:426-452`. -/
def halfSumRoundedAll (L : Layout) (P : Nat) (cfg : Cfg) : List (Res Unit Unit) := [
    halfSumRoundedBody L P cfg (.ok FP.min) (.ok FP.max) (negOf (.ok FP.epsilon)) (lit cfg c!"0")]

/-- Its cases, section `fp64`, `/repo/tests/it/ops.rs:426-452`. -/
def halfSumRounded64 (L : Layout) (P : Nat) (cfg : Cfg) : List (Res Unit Unit) := [
    halfSumRoundedBody L P cfg (lit cfg c!"9000000000.000000394")
      (lit cfg c!"9000000001.000000397") (lit cfg c!"9000000000.500000395")
      (lit cfg c!"9000000000.500000396"),
    halfSumRoundedBody L P cfg (lit cfg c!"9000000000.000000001")
      (lit cfg c!"-9000000000.000000006") (lit cfg c!"-0.000000003") (lit cfg c!"-0.000000002"),
    halfSumRoundedBody L P cfg (lit cfg c!"7.123456789") (lit cfg c!"7.123456788")
      (lit cfg c!"7.123456788") (lit cfg c!"7.123456789")]

/-- Its cases, section `fp128`, `/repo/tests/it/ops.rs:426-452`. -/
def halfSumRounded128 (L : Layout) (P : Nat) (cfg : Cfg) : List (Res Unit Unit) := [
    halfSumRoundedBody L P cfg (lit cfg c!"7.123456789123456789")
      (lit cfg c!"7.123456789123456788") (lit cfg c!"7.123456789123456788")
      (lit cfg c!"7.123456789123456789")]

theorem conf_half_sum_rounded : 
    inAll halfSumRoundedAll = true ∧ in64 halfSumRounded64 = true ∧ in128 halfSumRounded128 = true := by
  decide +kernel

/-- Body of `integral`, `/repo/tests/it/ops.rs:455-479`. -/
def integralBody (L : Layout) (P : Nat) (cfg : Cfg) (a : N L P) (expFloor expCeil expNearest : Int) : Res Unit Unit := do
  let a ← a
  gives (FP.integral cfg a .floor : Res Unit _) (int L expFloor)
  gives (FP.integral cfg a .nearest : Res Unit _) (int L expNearest)
  gives (FP.integral cfg a .ceil : Res Unit _) (int L expCeil)

/-- Its cases, section `all`, `/repo/tests/it/ops.rs:455-479`. -/
def integralAll (L : Layout) (P : Nat) (cfg : Cfg) : List (Res Unit Unit) := [
    integralBody L P cfg (lit cfg c!"0") 0 0 0,
    integralBody L P cfg (lit cfg c!"0.0001") 0 1 0,
    integralBody L P cfg (lit cfg c!"0.5") 0 1 1,
    integralBody L P cfg (lit cfg c!"0.9") 0 1 1,
    integralBody L P cfg (lit cfg c!"-0.0001") (-1) 0 0,
    integralBody L P cfg (lit cfg c!"-0.5") (-1) 0 (-1),
    integralBody L P cfg (lit cfg c!"-0.9") (-1) 0 (-1),
    integralBody L P cfg (lit cfg c!"2.0001") 2 3 2,
    integralBody L P cfg (lit cfg c!"2.5") 2 3 3,
    integralBody L P cfg (lit cfg c!"2.9") 2 3 3,
    integralBody L P cfg (lit cfg c!"-2.0001") (-3) (-2) (-2),
    integralBody L P cfg (lit cfg c!"-2.5") (-3) (-2) (-3),
    integralBody L P cfg (lit cfg c!"-2.9") (-3) (-2) (-3)]

theorem conf_integral : inAll integralAll = true := by
  decide +kernel

/-- Body of `round_towards_zero_by`, `/repo/tests/it/ops.rs:482-504`. -/
def roundTowardsZeroByBody (L : Layout) (P : Nat) (_cfg : Cfg) (x rounder expected : N L P) : Res Unit Unit := do
  let x ← x
  let rounder ← rounder
  let expected ← expected
  rustAssert (FP.roundTowardsZeroBy x rounder == expected)
  let nx ← hush (FP.cneg x)
  let ne ← hush (FP.cneg expected)
  rustAssert (FP.roundTowardsZeroBy nx rounder == ne)

/-- Its cases, section `all`, `/repo/tests/it/ops.rs:482-504`. -/
def roundTowardsZeroByAll (L : Layout) (P : Nat) (cfg : Cfg) : List (Res Unit Unit) := [
    roundTowardsZeroByBody L P cfg (lit cfg c!"1234.56789") (lit cfg c!"100") (lit cfg c!"1200"),
    roundTowardsZeroByBody L P cfg (lit cfg c!"1234.56789") (lit cfg c!"10") (lit cfg c!"1230"),
    roundTowardsZeroByBody L P cfg (lit cfg c!"1234.56789") (lit cfg c!"1") (lit cfg c!"1234"),
    roundTowardsZeroByBody L P cfg (lit cfg c!"1234.56789") (lit cfg c!"0.1") (lit cfg c!"1234.5"),
    roundTowardsZeroByBody L P cfg (lit cfg c!"1234.56789") (lit cfg c!"0.01") (lit cfg c!"1234.56"),
    roundTowardsZeroByBody L P cfg (lit cfg c!"1234.56789") (lit cfg c!"0.001")
      (lit cfg c!"1234.567"),
    roundTowardsZeroByBody L P cfg (lit cfg c!"1234.56789") (lit cfg c!"0.0001")
      (lit cfg c!"1234.5678"),
    roundTowardsZeroByBody L P cfg (lit cfg c!"1234.56789") (lit cfg c!"0.00001")
      (lit cfg c!"1234.56789")]

/-- Its cases, section `fp128`, `/repo/tests/it/ops.rs:482-504`. -/
def roundTowardsZeroBy128 (L : Layout) (P : Nat) (cfg : Cfg) : List (Res Unit Unit) := [
    roundTowardsZeroByBody L P cfg (lit cfg c!"1234.56789123456789")
      (lit cfg c!"0.0000000000001") (lit cfg c!"1234.5678912345678"),
    roundTowardsZeroByBody L P cfg (lit cfg c!"1234.56789123456789")
      (lit cfg c!"0.00000000000001") (lit cfg c!"1234.56789123456789")]

theorem conf_round_towards_zero_by : 
    inAll roundTowardsZeroByAll = true ∧ in128 roundTowardsZeroBy128 = true := by
  decide +kernel

/-- Body of `next_power_of_ten`, `/repo/tests/it/ops.rs:507-580`. -/
def nextPowerOfTenBody (L : Layout) (P : Nat) (_cfg : Cfg) (x expected : N L P) : Res Unit Unit := do
  let x ← x
  let expected ← expected
  gives (FP.nextPowerOfTen x) expected
  let nx ← hush (FP.cneg x)
  let ne ← hush (FP.cneg expected)
  gives (FP.nextPowerOfTen nx) ne

/-- Its cases, section `all`, `/repo/tests/it/ops.rs:507-580`. -/
def nextPowerOfTenAll (L : Layout) (P : Nat) (cfg : Cfg) : List (Res Unit Unit) := [
    nextPowerOfTenBody L P cfg (lit cfg c!"0.000000001") (lit cfg c!"0.000000001"),
    nextPowerOfTenBody L P cfg (lit cfg c!"0.000000002") (lit cfg c!"0.00000001"),
    nextPowerOfTenBody L P cfg (lit cfg c!"0.000000009") (lit cfg c!"0.00000001"),
    nextPowerOfTenBody L P cfg (lit cfg c!"0.0000001") (lit cfg c!"0.0000001"),
    nextPowerOfTenBody L P cfg (lit cfg c!"0.0000002") (lit cfg c!"0.000001"),
    nextPowerOfTenBody L P cfg (lit cfg c!"0.1") (lit cfg c!"0.1"),
    nextPowerOfTenBody L P cfg (lit cfg c!"0.100000001") (lit cfg c!"1"),
    nextPowerOfTenBody L P cfg (lit cfg c!"1") (lit cfg c!"1"),
    nextPowerOfTenBody L P cfg (lit cfg c!"2") (lit cfg c!"10"),
    nextPowerOfTenBody L P cfg (lit cfg c!"1234567") (lit cfg c!"10000000"),
    nextPowerOfTenBody L P cfg (lit cfg c!"923372036.654775807") (lit cfg c!"1000000000"),
    nextPowerOfTenBody L P cfg (lit cfg c!"-0.000000001") (lit cfg c!"-0.000000001"),
    nextPowerOfTenBody L P cfg (lit cfg c!"-0.000000002") (lit cfg c!"-0.00000001"),
    nextPowerOfTenBody L P cfg (lit cfg c!"-0.000000009") (lit cfg c!"-0.00000001"),
    nextPowerOfTenBody L P cfg (lit cfg c!"-0.00000001") (lit cfg c!"-0.00000001"),
    nextPowerOfTenBody L P cfg (lit cfg c!"-0.00000002") (lit cfg c!"-0.0000001"),
    nextPowerOfTenBody L P cfg (lit cfg c!"-0.100000001") (lit cfg c!"-1"),
    nextPowerOfTenBody L P cfg (lit cfg c!"-923372021.854775808") (lit cfg c!"-1000000000")]

/-- Its cases, section `fp128`, `/repo/tests/it/ops.rs:507-580`. -/
def nextPowerOfTen128 (L : Layout) (P : Nat) (cfg : Cfg) : List (Res Unit Unit) := [
    nextPowerOfTenBody L P cfg (lit cfg c!"0.000000000000000001") (lit cfg c!"0.000000000000000001"),
    nextPowerOfTenBody L P cfg (lit cfg c!"0.000000000000000002") (lit cfg c!"0.00000000000000001"),
    nextPowerOfTenBody L P cfg (lit cfg c!"0.000000000000000009") (lit cfg c!"0.00000000000000001"),
    nextPowerOfTenBody L P cfg (lit cfg c!"0.00000000000000001") (lit cfg c!"0.00000000000000001"),
    nextPowerOfTenBody L P cfg (lit cfg c!"0.00000000000000002") (lit cfg c!"0.0000000000000001"),
    nextPowerOfTenBody L P cfg (lit cfg c!"0.100000000000000001") (lit cfg c!"1"),
    nextPowerOfTenBody L P cfg (lit cfg c!"1234567891234567") (lit cfg c!"10000000000000000"),
    nextPowerOfTenBody L P cfg (lit cfg c!"923372036987654321.854775807")
      (lit cfg c!"1000000000000000000"),
    nextPowerOfTenBody L P cfg (lit cfg c!"-0.000000000000000001")
      (lit cfg c!"-0.000000000000000001"),
    nextPowerOfTenBody L P cfg (lit cfg c!"-0.000000000000000002")
      (lit cfg c!"-0.00000000000000001"),
    nextPowerOfTenBody L P cfg (lit cfg c!"-0.000000000000000009")
      (lit cfg c!"-0.00000000000000001"),
    nextPowerOfTenBody L P cfg (lit cfg c!"-0.00000000000000001") (lit cfg c!"-0.00000000000000001"),
    nextPowerOfTenBody L P cfg (lit cfg c!"-0.00000000000000002") (lit cfg c!"-0.0000000000000001"),
    nextPowerOfTenBody L P cfg (lit cfg c!"-0.100000000000000001") (lit cfg c!"-1"),
    nextPowerOfTenBody L P cfg (lit cfg c!"-923372036987654321.854775808")
      (lit cfg c!"-1000000000000000000")]

theorem conf_next_power_of_ten : 
    inAll nextPowerOfTenAll = true ∧ in128 nextPowerOfTen128 = true := by
  decide +kernel

/-- Body of `next_power_of_ten`, block 2, `/repo/tests/it/ops.rs:507-580`. -/
def nextPowerOfTen2Body (L : Layout) (P : Nat) (_cfg : Cfg) (x expected : N L P) : Res Unit Unit := do
  let x ← x
  let expected ← expected
  gives (FP.nextPowerOfTen x) expected

/-- Its cases, section `fp64`, `/repo/tests/it/ops.rs:507-580`. -/
def nextPowerOfTen264 (L : Layout) (P : Nat) (cfg : Cfg) : List (Res Unit Unit) := [
    nextPowerOfTen2Body L P cfg (lit cfg c!"0") (lit cfg c!"0.000000001")]

/-- Its cases, section `fp128`, `/repo/tests/it/ops.rs:507-580`. -/
def nextPowerOfTen2128 (L : Layout) (P : Nat) (cfg : Cfg) : List (Res Unit Unit) := [
    nextPowerOfTen2Body L P cfg (lit cfg c!"0") (lit cfg c!"0.000000000000000001")]

theorem conf_next_power_of_ten_2 : 
    in64 nextPowerOfTen264 = true ∧ in128 nextPowerOfTen2128 = true := by
  decide +kernel

/-- Body of `next_power_of_ten`, block 3, `/repo/tests/it/ops.rs:507-580`. -/
def nextPowerOfTen3Body (L : Layout) (P : Nat) (_cfg : Cfg) (x : N L P) : Res Unit Unit := do
  let x ← x
  fails (FP.nextPowerOfTen x) .overflow

/-- Its cases, section `all`, `/repo/tests/it/ops.rs:507-580`. -/
def nextPowerOfTen3All (L : Layout) (P : Nat) (cfg : Cfg) : List (Res Unit Unit) := [
    nextPowerOfTen3Body L P cfg (.ok FP.max),
    nextPowerOfTen3Body L P cfg (.ok FP.min)]

/-- Its cases, section `fp64`, `/repo/tests/it/ops.rs:507-580`. -/
def nextPowerOfTen364 (L : Layout) (P : Nat) (cfg : Cfg) : List (Res Unit Unit) := [
    nextPowerOfTen3Body L P cfg (lit cfg c!"9223372036.654775807"),
    nextPowerOfTen3Body L P cfg (lit cfg c!"-9223372036.654775807")]

/-- Its cases, section `fp128`, `/repo/tests/it/ops.rs:507-580`. -/
def nextPowerOfTen3128 (L : Layout) (P : Nat) (cfg : Cfg) : List (Res Unit Unit) := [
    nextPowerOfTen3Body L P cfg (lit cfg c!"150000000000000000000.0"),
    nextPowerOfTen3Body L P cfg (lit cfg c!"-150000000000000000000.854775807")]

theorem conf_next_power_of_ten_3 : 
    inAll nextPowerOfTen3All = true ∧ in64 nextPowerOfTen364 = true ∧ in128 nextPowerOfTen3128 = true := by
  decide +kernel

/-- Body of `saturating_add`, `/repo/tests/it/ops.rs:583-624`. -/
def saturatingAddBody (L : Layout) (P : Nat) (_cfg : Cfg) (a b expected : N L P) : Res Unit Unit := do
  let a ← a
  let b ← b
  let expected ← expected
  rustAssert (FP.saturatingAdd a b == expected)
  rustAssert (FP.saturatingAdd b a == expected)
  let na ← hush (FP.cneg a)
  let nb ← hush (FP.cneg b)
  let ne ← hush (FP.cneg expected)
  rustAssert (FP.saturatingAdd na nb == ne)

/-- Its cases, section `all`, `/repo/tests/it/ops.rs:583-624`. -/
def saturatingAddAll (L : Layout) (P : Nat) (cfg : Cfg) : List (Res Unit Unit) := [
    saturatingAddBody L P cfg (lit cfg c!"0") (lit cfg c!"0") (lit cfg c!"0"),
    saturatingAddBody L P cfg (lit cfg c!"0") (lit cfg c!"3000.0000006") (lit cfg c!"3000.0000006"),
    saturatingAddBody L P cfg (lit cfg c!"-1000.0000002") (lit cfg c!"0")
      (lit cfg c!"-1000.0000002"),
    saturatingAddBody L P cfg (lit cfg c!"-1000.0000002") (lit cfg c!"3000.0000006")
      (lit cfg c!"2000.0000004"),
    saturatingAddBody L P cfg (lit cfg c!"-1000.0000002") (lit cfg c!"-3000.0000006")
      (lit cfg c!"-4000.0000008"),
    saturatingAddBody L P cfg (lit cfg c!"4611686018.427387903")
      (lit cfg c!"4611686018.427387903") (lit cfg c!"9223372036.854775806")]

/-- Its cases, section `fp128`, `/repo/tests/it/ops.rs:583-624`. -/
def saturatingAdd128 (L : Layout) (P : Nat) (cfg : Cfg) : List (Res Unit Unit) := [
    saturatingAddBody L P cfg (lit cfg c!"0") (lit cfg c!"3000000000000.0000000000000006")
      (lit cfg c!"3000000000000.0000000000000006"),
    saturatingAddBody L P cfg (lit cfg c!"-1000000000000.0000000000000002") (lit cfg c!"0")
      (lit cfg c!"-1000000000000.0000000000000002"),
    saturatingAddBody L P cfg (lit cfg c!"-1000000000000.0000000000000002")
      (lit cfg c!"3000000000000.0000000000000006") (lit cfg c!"2000000000000.0000000000000004"),
    saturatingAddBody L P cfg (lit cfg c!"-1000000000000.0000000000000002")
      (lit cfg c!"-3000000000000.0000000000000006")
      (lit cfg c!"-4000000000000.0000000000000008"),
    saturatingAddBody L P cfg (lit cfg c!"4611686018000000000.000000000427387903")
      (lit cfg c!"4611686018000000000.000000000427387903")
      (lit cfg c!"9223372036000000000.000000000854775806")]

theorem conf_saturating_add : 
    inAll saturatingAddAll = true ∧ in128 saturatingAdd128 = true := by
  decide +kernel

/-- Body of `saturating_add`, block 2, `/repo/tests/it/ops.rs:583-624`. -/
def saturatingAdd2Body (L : Layout) (P : Nat) (_cfg : Cfg) (a b expected : N L P) : Res Unit Unit := do
  let a ← a
  let b ← b
  let expected ← expected
  rustAssert (FP.saturatingAdd a b == expected)

/-- Its cases, section `fp64`, `/repo/tests/it/ops.rs:583-624`. -/
def saturatingAdd264 (L : Layout) (P : Nat) (cfg : Cfg) : List (Res Unit Unit) := [
    saturatingAdd2Body L P cfg (lit cfg c!"9222222222") (lit cfg c!"9222222222") (.ok FP.max),
    saturatingAdd2Body L P cfg (lit cfg c!"4611686019") (lit cfg c!"4611686018.427387903")
      (.ok FP.max),
    saturatingAdd2Body L P cfg (lit cfg c!"-9222222222") (lit cfg c!"-9222222222") (.ok FP.min),
    saturatingAdd2Body L P cfg (lit cfg c!"-4611686019") (lit cfg c!"-4611686018.427387903")
      (.ok FP.min)]

/-- Its cases, section `fp128`, `/repo/tests/it/ops.rs:583-624`. -/
def saturatingAdd2128 (L : Layout) (P : Nat) (cfg : Cfg) : List (Res Unit Unit) := [
    saturatingAdd2Body L P cfg (lit cfg c!"85550005550005550005")
      (lit cfg c!"85550005550005550005") (.ok FP.max),
    saturatingAdd2Body L P cfg (lit cfg c!"85550005550005550005")
      (lit cfg c!"85550005550005550005.000000000427387") (.ok FP.max),
    saturatingAdd2Body L P cfg (lit cfg c!"-85550005550005550005")
      (lit cfg c!"-85550005550005550005") (.ok FP.min),
    saturatingAdd2Body L P cfg (lit cfg c!"-85550005550005550005")
      (lit cfg c!"-85550005550005550005.000000000427387") (.ok FP.min)]

theorem conf_saturating_add_2 : 
    in64 saturatingAdd264 = true ∧ in128 saturatingAdd2128 = true := by
  decide +kernel

/-- Body of `saturating_mul`, `/repo/tests/it/ops.rs:627-673`. -/
def saturatingMulBody (L : Layout) (P : Nat) (_cfg : Cfg) (a : N L P) (b : Int) (expected : N L P) : Res Unit Unit := do
  let a ← a
  let expected ← expected
  rustAssert (FP.saturatingMul a (int L b) == expected)
  rustAssert (FP.intSaturatingMul (int L b) a == expected)
  let na ← hush (FP.cneg a)
  let ne ← hush (FP.cneg expected)
  rustAssert (FP.saturatingMul na (int L b) == ne)
  rustAssert (FP.saturatingMul a (int L (-b)) == ne)
  rustAssert (FP.saturatingMul na (int L (-b)) == expected)

/-- Its cases, section `all`, `/repo/tests/it/ops.rs:627-673`. -/
def saturatingMulAll (L : Layout) (P : Nat) (cfg : Cfg) : List (Res Unit Unit) := [
    saturatingMulBody L P cfg (lit cfg c!"0") 0 (lit cfg c!"0"),
    saturatingMulBody L P cfg (lit cfg c!"3000.0000006") 0 (lit cfg c!"0"),
    saturatingMulBody L P cfg (lit cfg c!"3000.0000006") 1 (lit cfg c!"3000.0000006"),
    saturatingMulBody L P cfg (lit cfg c!"-1000.0000002") 0 (lit cfg c!"0"),
    saturatingMulBody L P cfg (lit cfg c!"-1000.0000002") 3 (lit cfg c!"-3000.0000006"),
    saturatingMulBody L P cfg (lit cfg c!"-1000.0000002") (-4) (lit cfg c!"4000.0000008"),
    saturatingMulBody L P cfg (lit cfg c!"68601.48179") (-468) (lit cfg c!"-32105493.47772")]

/-- Its cases, section `fp128`, `/repo/tests/it/ops.rs:627-673`. -/
def saturatingMul128 (L : Layout) (P : Nat) (cfg : Cfg) : List (Res Unit Unit) := [
    saturatingMulBody L P cfg (lit cfg c!"3000000000000.0000000000000006") 0 (.ok FP.zero),
    saturatingMulBody L P cfg (lit cfg c!"3000000000000.0000000000000006") 1
      (lit cfg c!"3000000000000.0000000000000006"),
    saturatingMulBody L P cfg (lit cfg c!"-1000000000000.0000000000000002") 0 (.ok FP.zero),
    saturatingMulBody L P cfg (lit cfg c!"-1000000000000.0000000000000002") 3
      (lit cfg c!"-3000000000000.0000000000000006"),
    saturatingMulBody L P cfg (lit cfg c!"-1000000000000.0000000000000002") (-4)
      (lit cfg c!"4000000000000.0000000000000008"),
    saturatingMulBody L P cfg (lit cfg c!"68603957391461.48475635294179") (-85204)
      (lit cfg c!"-5845331585582084347.18029605227516")]

theorem conf_saturating_mul : 
    inAll saturatingMulAll = true ∧ in128 saturatingMul128 = true := by
  decide +kernel

/-- Body of `saturating_mul`, block 2, `/repo/tests/it/ops.rs:627-673`. -/
def saturatingMul2Body (L : Layout) (P : Nat) (_cfg : Cfg) (a : N L P) (b : Int) (expected : N L P) : Res Unit Unit := do
  let a ← a
  let expected ← expected
  rustAssert (FP.saturatingMul a (int L b) == expected)

/-- Its cases, section `fp64`, `/repo/tests/it/ops.rs:627-673`. -/
def saturatingMul264 (L : Layout) (P : Nat) (cfg : Cfg) : List (Res Unit Unit) := [
    saturatingMul2Body L P cfg (lit cfg c!"9222222222") 9222222222 (.ok FP.max),
    saturatingMul2Body L P cfg (lit cfg c!"4611686019.427387903") 4611686019 (.ok FP.max),
    saturatingMul2Body L P cfg (lit cfg c!"-9222222222") 9222222222 (.ok FP.min),
    saturatingMul2Body L P cfg (lit cfg c!"4611686019.427387903") (-4611686019) (.ok FP.min)]

/-- Its cases, section `fp128`, `/repo/tests/it/ops.rs:627-673`. -/
def saturatingMul2128 (L : Layout) (P : Nat) (cfg : Cfg) : List (Res Unit Unit) := [
    saturatingMul2Body L P cfg (lit cfg c!"85550005550005550005") 85550005550005550005 (.ok FP.max),
    saturatingMul2Body L P cfg (lit cfg c!"14000444000.427387") 14000444000 (.ok FP.max),
    saturatingMul2Body L P cfg (lit cfg c!"-85550005550005550005") 85550005550005550005 (.ok FP.min),
    saturatingMul2Body L P cfg (lit cfg c!"14000444000.427387") (-14000444000) (.ok FP.min)]

theorem conf_saturating_mul_2 : 
    in64 saturatingMul264 = true ∧ in128 saturatingMul2128 = true := by
  decide +kernel

/-- Body of `saturating_rmul`, `/repo/tests/it/ops.rs:676-728`. -/
def saturatingRmulBody (L : Layout) (P : Nat) (cfg : Cfg) (a b expected : N L P) : Res Unit Unit := do
  let a ← a
  let b ← b
  let expected ← expected
  gives (FP.saturatingRmul cfg a b .floor : N L P) expected
  gives (FP.saturatingRmul cfg b a .floor : N L P) expected
  let na ← hush (FP.cneg a)
  let nb ← hush (FP.cneg b)
  let ne ← hush (FP.cneg expected)
  gives (FP.saturatingRmul cfg na b .floor : N L P) ne
  gives (FP.saturatingRmul cfg a nb .floor : N L P) ne
  gives (FP.saturatingRmul cfg na nb .floor : N L P) expected

/-- Its cases, section `all`, `/repo/tests/it/ops.rs:676-728`. -/
def saturatingRmulAll (L : Layout) (P : Nat) (cfg : Cfg) : List (Res Unit Unit) := [
    saturatingRmulBody L P cfg (lit cfg c!"0") (lit cfg c!"0") (lit cfg c!"0"),
    saturatingRmulBody L P cfg (lit cfg c!"0") (lit cfg c!"3000.0000006") (lit cfg c!"0"),
    saturatingRmulBody L P cfg (lit cfg c!"1") (lit cfg c!"3000.0000006") (lit cfg c!"3000.0000006"),
    saturatingRmulBody L P cfg (lit cfg c!"-1000.0000002") (lit cfg c!"0") (lit cfg c!"0"),
    saturatingRmulBody L P cfg (lit cfg c!"-1000.0000002") (lit cfg c!"3")
      (lit cfg c!"-3000.0000006"),
    saturatingRmulBody L P cfg (lit cfg c!"-1000.0000002") (lit cfg c!"-4")
      (lit cfg c!"4000.0000008"),
    saturatingRmulBody L P cfg (lit cfg c!"68601.48179") (lit cfg c!"-468.28")
      (lit cfg c!"-32124701.8926212")]

/-- Its cases, section `fp128`, `/repo/tests/it/ops.rs:676-728`. -/
def saturatingRmul128 (L : Layout) (P : Nat) (cfg : Cfg) : List (Res Unit Unit) := [
    saturatingRmulBody L P cfg (lit cfg c!"0") (lit cfg c!"3000000000000.0000000000000006")
      (lit cfg c!"0"),
    saturatingRmulBody L P cfg (lit cfg c!"1") (lit cfg c!"3000000000000.0000000000000006")
      (lit cfg c!"3000000000000.0000000000000006"),
    saturatingRmulBody L P cfg (lit cfg c!"-1000000000000.0000000000000002") (lit cfg c!"0")
      (lit cfg c!"0"),
    saturatingRmulBody L P cfg (lit cfg c!"-1000000000000.0000000000000002") (lit cfg c!"3")
      (lit cfg c!"-3000000000000.0000000000000006"),
    saturatingRmulBody L P cfg (lit cfg c!"-1000000000000.0000000000000002") (lit cfg c!"-4")
      (lit cfg c!"4000000000000.0000000000000008")]

theorem conf_saturating_rmul : 
    inAll saturatingRmulAll = true ∧ in128 saturatingRmul128 = true := by
  decide +kernel

/-- Body of `saturating_rmul`, block 2, `/repo/tests/it/ops.rs:676-728`. -/
def saturatingRmul2Body (L : Layout) (P : Nat) (cfg : Cfg) (a b : N L P) (mode : RoundMode) (expected : N L P) : Res Unit Unit := do
  let a ← a
  let b ← b
  let expected ← expected
  gives (FP.saturatingRmul cfg a b mode : N L P) expected

/-- Its cases, section `fp64`, `/repo/tests/it/ops.rs:676-728`. -/
def saturatingRmul264 (L : Layout) (P : Nat) (cfg : Cfg) : List (Res Unit Unit) := [
    saturatingRmul2Body L P cfg (lit cfg c!"0.000000001") (lit cfg c!"-0.1") .floor
      (lit cfg c!"-0.000000001"),
    saturatingRmul2Body L P cfg (lit cfg c!"0.000000001") (lit cfg c!"0.1") .ceil
      (lit cfg c!"0.000000001"),
    saturatingRmul2Body L P cfg (lit cfg c!"0.000000001") (lit cfg c!"0.1") .floor (lit cfg c!"0"),
    saturatingRmul2Body L P cfg (lit cfg c!"-0.000000001") (lit cfg c!"0.1") .ceil (lit cfg c!"0"),
    saturatingRmul2Body L P cfg (lit cfg c!"9222222222") (lit cfg c!"9222222222") .floor
      (.ok FP.max),
    saturatingRmul2Body L P cfg (lit cfg c!"4611686019") (lit cfg c!"4611686018.427387903")
      .floor (.ok FP.max),
    saturatingRmul2Body L P cfg (lit cfg c!"-9222222222") (lit cfg c!"9222222222") .floor
      (.ok FP.min),
    saturatingRmul2Body L P cfg (lit cfg c!"4611686019") (lit cfg c!"-4611686018.427387903")
      .floor (.ok FP.min)]

/-- Its cases, section `fp128`, `/repo/tests/it/ops.rs:676-728`. -/
def saturatingRmul2128 (L : Layout) (P : Nat) (cfg : Cfg) : List (Res Unit Unit) := [
    saturatingRmul2Body L P cfg (lit cfg c!"0.000000000000000001") (lit cfg c!"0.1") .floor
      (lit cfg c!"0"),
    saturatingRmul2Body L P cfg (lit cfg c!"0.000000000000000001") (lit cfg c!"-0.1") .floor
      (lit cfg c!"-0.000000000000000001"),
    saturatingRmul2Body L P cfg (lit cfg c!"0.000000000000000001") (lit cfg c!"0.1") .ceil
      (lit cfg c!"0.000000000000000001"),
    saturatingRmul2Body L P cfg (lit cfg c!"-0.000000000000000001") (lit cfg c!"0.1") .ceil
      (lit cfg c!"0"),
    saturatingRmul2Body L P cfg (lit cfg c!"85550005550005550005")
      (lit cfg c!"85550005550005550005") .floor (.ok FP.max),
    saturatingRmul2Body L P cfg (lit cfg c!"4611686019")
      (lit cfg c!"4611686018000000000.000000000427387903") .floor (.ok FP.max),
    saturatingRmul2Body L P cfg (lit cfg c!"-85550005550005550005")
      (lit cfg c!"85550005550005550005") .floor (.ok FP.min),
    saturatingRmul2Body L P cfg (lit cfg c!"4611686019")
      (lit cfg c!"-4611686018000000000.000000000427387903") .floor (.ok FP.min)]

theorem conf_saturating_rmul_2 : 
    in64 saturatingRmul264 = true ∧ in128 saturatingRmul2128 = true := by
  decide +kernel

/-- Body of `saturating_sub`, `/repo/tests/it/ops.rs:731-772`. -/
def saturatingSubBody (L : Layout) (P : Nat) (_cfg : Cfg) (a b expected : N L P) : Res Unit Unit := do
  let a ← a
  let b ← b
  let expected ← expected
  rustAssert (FP.saturatingSub a b == expected)
  let na ← hush (FP.cneg a)
  let nb ← hush (FP.cneg b)
  let ne ← hush (FP.cneg expected)
  rustAssert (FP.saturatingSub b a == ne)
  rustAssert (FP.saturatingSub na nb == ne)

/-- Its cases, section `all`, `/repo/tests/it/ops.rs:731-772`. -/
def saturatingSubAll (L : Layout) (P : Nat) (cfg : Cfg) : List (Res Unit Unit) := [
    saturatingSubBody L P cfg (lit cfg c!"0") (lit cfg c!"0") (lit cfg c!"0"),
    saturatingSubBody L P cfg (lit cfg c!"0") (lit cfg c!"3000.0000006") (lit cfg c!"-3000.0000006"),
    saturatingSubBody L P cfg (lit cfg c!"-1000.0000002") (lit cfg c!"0")
      (lit cfg c!"-1000.0000002"),
    saturatingSubBody L P cfg (lit cfg c!"-1000.0000002") (lit cfg c!"3000.0000006")
      (lit cfg c!"-4000.0000008"),
    saturatingSubBody L P cfg (lit cfg c!"-1000.0000002") (lit cfg c!"-3000.0000006")
      (lit cfg c!"2000.0000004"),
    saturatingSubBody L P cfg (lit cfg c!"4611686018.427387903")
      (lit cfg c!"-4611686018.427387903") (lit cfg c!"9223372036.854775806")]

/-- Its cases, section `fp128`, `/repo/tests/it/ops.rs:731-772`. -/
def saturatingSub128 (L : Layout) (P : Nat) (cfg : Cfg) : List (Res Unit Unit) := [
    saturatingSubBody L P cfg (lit cfg c!"0") (lit cfg c!"3000000000000.0000000000000006")
      (lit cfg c!"-3000000000000.0000000000000006"),
    saturatingSubBody L P cfg (lit cfg c!"-1000000000000.0000000000000002") (lit cfg c!"0")
      (lit cfg c!"-1000000000000.0000000000000002"),
    saturatingSubBody L P cfg (lit cfg c!"-1000000000000.0000000000000002")
      (lit cfg c!"3000000000000.0000000000000006") (lit cfg c!"-4000000000000.0000000000000008"),
    saturatingSubBody L P cfg (lit cfg c!"-1000000000000.0000000000000002")
      (lit cfg c!"-3000000000000.0000000000000006") (lit cfg c!"2000000000000.0000000000000004"),
    saturatingSubBody L P cfg (lit cfg c!"4611686018000000000.000000000427387903")
      (lit cfg c!"-4611686018000000000.000000000427387903")
      (lit cfg c!"9223372036000000000.000000000854775806")]

theorem conf_saturating_sub : 
    inAll saturatingSubAll = true ∧ in128 saturatingSub128 = true := by
  decide +kernel

/-- Body of `saturating_sub`, block 2, `/repo/tests/it/ops.rs:731-772`. -/
def saturatingSub2Body (L : Layout) (P : Nat) (_cfg : Cfg) (a b expected : N L P) : Res Unit Unit := do
  let a ← a
  let b ← b
  let expected ← expected
  rustAssert (FP.saturatingSub a b == expected)

/-- Its cases, section `fp64`, `/repo/tests/it/ops.rs:731-772`. -/
def saturatingSub264 (L : Layout) (P : Nat) (cfg : Cfg) : List (Res Unit Unit) := [
    saturatingSub2Body L P cfg (lit cfg c!"9222222222") (lit cfg c!"-9222222222") (.ok FP.max),
    saturatingSub2Body L P cfg (lit cfg c!"4611686019") (lit cfg c!"-4611686018.27387903")
      (.ok FP.max),
    saturatingSub2Body L P cfg (lit cfg c!"-9222222222") (lit cfg c!"9222222222") (.ok FP.min),
    saturatingSub2Body L P cfg (lit cfg c!"-4611686019") (lit cfg c!"4611686018.47387903")
      (.ok FP.min)]

/-- Its cases, section `fp128`, `/repo/tests/it/ops.rs:731-772`. -/
def saturatingSub2128 (L : Layout) (P : Nat) (cfg : Cfg) : List (Res Unit Unit) := [
    saturatingSub2Body L P cfg (lit cfg c!"85550005550005550005")
      (lit cfg c!"-85550005550005550005") (.ok FP.max),
    saturatingSub2Body L P cfg (lit cfg c!"85550005550005550005")
      (lit cfg c!"-85550005550005550005.000000000427387903") (.ok FP.max),
    saturatingSub2Body L P cfg (lit cfg c!"-85550005550005550005")
      (lit cfg c!"85550005550005550005") (.ok FP.min),
    saturatingSub2Body L P cfg (lit cfg c!"-85550005550005550005")
      (lit cfg c!"85550005550005550005.000000000427387903") (.ok FP.min)]

theorem conf_saturating_sub_2 : 
    in64 saturatingSub264 = true ∧ in128 saturatingSub2128 = true := by
  decide +kernel

/-- Body of `sqrt_exact`, `/repo/tests/it/ops.rs:775-799`. -/
def sqrtExactBody (L : Layout) (P : Nat) (cfg : Cfg) (expected : N L P) : Res Unit Unit := do
  let expected ← expected
  let square ← hush (FP.rmul cfg expected expected .floor)
  gives (FP.rmul cfg expected expected .ceil) square
  gives (FP.rsqrt cfg square .floor) expected
  gives (FP.rsqrt cfg square .nearest) expected
  gives (FP.rsqrt cfg square .ceil) expected

/-- Its cases, section `all`, `/repo/tests/it/ops.rs:775-799`. -/
def sqrtExactAll (L : Layout) (P : Nat) (cfg : Cfg) : List (Res Unit Unit) := [
    sqrtExactBody L P cfg (lit cfg c!"0"),
    sqrtExactBody L P cfg (lit cfg c!"1"),
    sqrtExactBody L P cfg (lit cfg c!"2"),
    sqrtExactBody L P cfg (lit cfg c!"3"),
    sqrtExactBody L P cfg (lit cfg c!"1000"),
    sqrtExactBody L P cfg (lit cfg c!"96038"),
    sqrtExactBody L P cfg (rootOfMax cfg)]

/-- Its cases, section `fp128`, `/repo/tests/it/ops.rs:775-799`. -/
def sqrtExact128 (L : Layout) (P : Nat) (cfg : Cfg) : List (Res Unit Unit) := [
    sqrtExactBody L P cfg (lit cfg c!"10431725"),
    sqrtExactBody L P cfg (lit cfg c!"13043817825")]

theorem conf_sqrt_exact : inAll sqrtExactAll = true ∧ in128 sqrtExact128 = true := by
  decide +kernel

/-- Body of `sqrt_approx`, `/repo/tests/it/ops.rs:802-823`. -/
def sqrtApproxBody (L : Layout) (P : Nat) (cfg : Cfg) (x expFloor expNearest : N L P) : Res Unit Unit := do
  let x ← x
  let expFloor ← expFloor
  let expNearest ← expNearest
  gives (FP.rsqrt cfg x .floor) expFloor
  gives (FP.rsqrt cfg x .nearest) expNearest
  let up ← hush (FP.cadd expFloor (rawOf 1))
  gives (FP.rsqrt cfg x .ceil) up

/-- Its cases, section `fp64`, `/repo/tests/it/ops.rs:802-823`. -/
def sqrtApprox64 (L : Layout) (P : Nat) (cfg : Cfg) : List (Res Unit Unit) := [
    sqrtApproxBody L P cfg (lit cfg c!"2") (lit cfg c!"1.414213562") (lit cfg c!"1.414213562"),
    sqrtApproxBody L P cfg (lit cfg c!"22347") (lit cfg c!"149.489130039")
      (lit cfg c!"149.48913004"),
    sqrtApproxBody L P cfg (.ok FP.max) (lit cfg c!"96038.388349944") (lit cfg c!"96038.388349945")]

/-- Its cases, section `fp128`, `/repo/tests/it/ops.rs:802-823`. -/
def sqrtApprox128 (L : Layout) (P : Nat) (cfg : Cfg) : List (Res Unit Unit) := [
    sqrtApproxBody L P cfg (lit cfg c!"2") (lit cfg c!"1.414213562373095048")
      (lit cfg c!"1.414213562373095049"),
    sqrtApproxBody L P cfg (lit cfg c!"3.14159265358979323") (lit cfg c!"1.772453850905516024")
      (lit cfg c!"1.772453850905516025"),
    sqrtApproxBody L P cfg (lit cfg c!"5") (lit cfg c!"2.236067977499789696")
      (lit cfg c!"2.236067977499789696"),
    sqrtApproxBody L P cfg (lit cfg c!"22347") (lit cfg c!"149.489130039611910238")
      (lit cfg c!"149.489130039611910239"),
    sqrtApproxBody L P cfg (.ok FP.max) (lit cfg c!"13043817825.332782212349571806")
      (lit cfg c!"13043817825.332782212349571806")]

theorem conf_sqrt_approx : in64 sqrtApprox64 = true ∧ in128 sqrtApprox128 = true := by
  decide +kernel

/-- Body of `sqrt_negative`, `/repo/tests/it/ops.rs:826-841`. -/
def sqrtNegativeBody (L : Layout) (P : Nat) (cfg : Cfg) (x : N L P) : Res Unit Unit := do
  let x ← x
  fails (FP.rsqrt cfg x .floor) .domainViolation
  fails (FP.rsqrt cfg x .nearest) .domainViolation
  fails (FP.rsqrt cfg x .ceil) .domainViolation

/-- Its cases, section `all`, `/repo/tests/it/ops.rs:826-841`. -/
def sqrtNegativeAll (L : Layout) (P : Nat) (cfg : Cfg) : List (Res Unit Unit) := [
    sqrtNegativeBody L P cfg (lit cfg c!"-1"),
    sqrtNegativeBody L P cfg (negOf (.ok FP.epsilon)),
    sqrtNegativeBody L P cfg (.ok FP.min)]

theorem conf_sqrt_negative : inAll sqrtNegativeAll = true := by
  decide +kernel

/-! ## `/repo/tests/it/convert.rs` -/

/-- Body of `from_decimal`, `/repo/tests/it/convert.rs:8-24`. -/
def fromDecimalBody (L : Layout) (P : Nat) (cfg : Cfg) (mantissa exponent : Int) (expected : N L P) : Res Unit Unit := do
  let expected ← expected
  gives (FP.fromDecimal cfg (int L mantissa) exponent) expected
  let ne ← hush (FP.cneg expected)
  gives (FP.fromDecimal cfg (int L (-mantissa)) exponent) ne

/-- Its cases, section `all`, `/repo/tests/it/convert.rs:8-24`. -/
def fromDecimalAll (L : Layout) (P : Nat) (cfg : Cfg) : List (Res Unit Unit) := [
    fromDecimalBody L P cfg 5000000000 (-9) (lit cfg c!"5"),
    fromDecimalBody L P cfg 1 0 (lit cfg c!"1"),
    fromDecimalBody L P cfg 1 1 (lit cfg c!"10")]

/-- Its cases, section `fp128`, `/repo/tests/it/convert.rs:8-24`. -/
def fromDecimal128 (L : Layout) (P : Nat) (cfg : Cfg) : List (Res Unit Unit) := [
    fromDecimalBody L P cfg 5000000000000000000 (-18) (lit cfg c!"5")]

theorem conf_from_decimal : 
    inAll fromDecimalAll = true ∧ in128 fromDecimal128 = true := by
  decide +kernel

/-- Body of `to_decimal`, `/repo/tests/it/convert.rs:27-56`. -/
def toDecimalBody (L : Layout) (P : Nat) (_cfg : Cfg) (x : N L P) (maxExponent mantissa exponent : Int) : Res Unit Unit := do
  let x ← x
  let (m, e) ← (FP.toDecimal x maxExponent : Res Unit _)
  rustAssert (decide (e ≤ maxExponent))
  rustAssert (m == int L mantissa && e == exponent)
  let nx ← hush (FP.cneg x)
  let (m, e) ← (FP.toDecimal nx maxExponent : Res Unit _)
  rustAssert (decide (e ≤ maxExponent))
  rustAssert (m == int L (-mantissa) && e == exponent)

/-- Its cases, section `all`, `/repo/tests/it/convert.rs:27-56`. -/
def toDecimalAll (L : Layout) (P : Nat) (cfg : Cfg) : List (Res Unit Unit) := [
    toDecimalBody L P cfg (lit cfg c!"0") 0 0 0,
    toDecimalBody L P cfg (lit cfg c!"0") (-5) 0 (-5),
    toDecimalBody L P cfg (lit cfg c!"0") 5 0 0,
    toDecimalBody L P cfg (lit cfg c!"50") 0 50 0,
    toDecimalBody L P cfg (lit cfg c!"50") 1 5 1,
    toDecimalBody L P cfg (lit cfg c!"50") 5 5 1,
    toDecimalBody L P cfg (lit cfg c!"50") 2147483647 5 1,
    toDecimalBody L P cfg (lit cfg c!"50") (-2) 5000 (-2),
    toDecimalBody L P cfg (lit cfg c!"5.5") 0 55 (-1),
    toDecimalBody L P cfg (lit cfg c!"5.5") 1 55 (-1),
    toDecimalBody L P cfg (lit cfg c!"5.5") 5 55 (-1),
    toDecimalBody L P cfg (lit cfg c!"5.5") (-1) 55 (-1),
    toDecimalBody L P cfg (lit cfg c!"5.5") (-2) 550 (-2),
    toDecimalBody L P cfg (.ok FP.max) 0 (iMax L.bits) (-(P : Int))]

theorem conf_to_decimal : inAll toDecimalAll = true := by
  decide +kernel

/-! ## `/repo/tests/it/convert_str.rs` -/

/-- Body of `from_good_str_exact`, `/repo/tests/it/convert_str.rs:14-60`. -/
def fromGoodStrExactBody (L : Layout) (P : Nat) (cfg : Cfg) (input : List Char) (expected : Int) : Res Unit Unit := do
  gives (FP.fromStrExact cfg input) (rawOf expected : FP L P)
  gives (FP.fromStr cfg input) (rawOf expected : FP L P)
  gives (FP.deserialize cfg false true (.str true input)) (rawOf expected : FP L P)
  let text ← (FP.display cfg (rawOf expected : FP L P) : Res Unit _)
  gives (FP.deserialize cfg false true (.str true text)) (rawOf expected : FP L P)

/-- Its cases, section `fp64`, `/repo/tests/it/convert_str.rs:14-60`. -/
def fromGoodStrExact64 (L : Layout) (P : Nat) (cfg : Cfg) : List (Res Unit Unit) := [
    fromGoodStrExactBody L P cfg c!"1" 1000000000,
    fromGoodStrExactBody L P cfg c!"1.1" 1100000000,
    fromGoodStrExactBody L P cfg c!"1.02" 1020000000,
    fromGoodStrExactBody L P cfg c!"-1.02" (-1020000000),
    fromGoodStrExactBody L P cfg c!"+1.02" 1020000000,
    fromGoodStrExactBody L P cfg c!"0.1234" 123400000,
    fromGoodStrExactBody L P cfg c!"-0.1234" (-123400000),
    fromGoodStrExactBody L P cfg c!"123456789.123456789" 123456789123456789,
    fromGoodStrExactBody L P cfg c!"9223372036.854775807" 9223372036854775807,
    fromGoodStrExactBody L P cfg c!"-9223372036.854775808" (-9223372036854775808)]

/-- Its cases, section `fp128`, `/repo/tests/it/convert_str.rs:14-60`. -/
def fromGoodStrExact128 (L : Layout) (P : Nat) (cfg : Cfg) : List (Res Unit Unit) := [
    fromGoodStrExactBody L P cfg c!"1" 1000000000000000000,
    fromGoodStrExactBody L P cfg c!"1.1" 1100000000000000000,
    fromGoodStrExactBody L P cfg c!"1.02" 1020000000000000000,
    fromGoodStrExactBody L P cfg c!"-1.02" (-1020000000000000000),
    fromGoodStrExactBody L P cfg c!"+1.02" 1020000000000000000,
    fromGoodStrExactBody L P cfg c!"0.1234" 123400000000000000,
    fromGoodStrExactBody L P cfg c!"-0.1234" (-123400000000000000),
    fromGoodStrExactBody L P cfg c!"123456789.123456789" 123456789123456789000000000,
    fromGoodStrExactBody L P cfg c!"9223372036.854775807" 9223372036854775807000000000,
    fromGoodStrExactBody L P cfg c!"-9223372036.854775808" (-9223372036854775808000000000),
    fromGoodStrExactBody L P cfg c!"170141183460469231731.687303715884105727"
      170141183460469231731687303715884105727,
    fromGoodStrExactBody L P cfg c!"-170141183460469231731.687303715884105728"
      (-170141183460469231731687303715884105728)]

theorem conf_from_good_str_exact : 
    in64 fromGoodStrExact64 = true ∧ in128 fromGoodStrExact128 = true := by
  decide +kernel

/-- `check`, `/repo/tests/it/convert_str.rs:67-80`. -/
def inexactCheck (L : Layout) (P : Nat) (cfg : Cfg) (input : List Char) (expected : Int) :
    Res Unit Unit := do
  gives (FP.fromStr cfg input) (rawOf expected : FP L P)
  isErr (FP.fromStrExact cfg input : Res _ (FP L P))
  gives (FP.deserialize cfg false true (.str true input)) (rawOf expected : FP L P)
  let text ← (FP.display cfg (rawOf expected : FP L P) : Res Unit _)
  gives (FP.deserialize cfg false true (.str true text)) (rawOf expected : FP L P)

/-- Body of `from_good_str_inexact`, `/repo/tests/it/convert_str.rs:64-111`. -/
def fromGoodStrInexactBody (L : Layout) (P : Nat) (cfg : Cfg) (input : List Char) (expected : Int) : Res Unit Unit := do
  inexactCheck L P cfg input expected
  inexactCheck L P cfg ('-' :: input) (-expected)

/-- Its cases, section `fp64`, `/repo/tests/it/convert_str.rs:64-111`. -/
def fromGoodStrInexact64 (L : Layout) (P : Nat) (cfg : Cfg) : List (Res Unit Unit) := [
    fromGoodStrInexactBody L P cfg c!"13.0000000000000000001" 13000000000,
    fromGoodStrInexactBody L P cfg c!"13.0000000000000000005" 13000000000,
    fromGoodStrInexactBody L P cfg c!"13.0000000001" 13000000000,
    fromGoodStrInexactBody L P cfg c!"13.0000000005" 13000000001,
    fromGoodStrInexactBody L P cfg c!"13.0000000009" 13000000001,
    fromGoodStrInexactBody L P cfg c!"13.1000000001" 13100000000,
    fromGoodStrInexactBody L P cfg c!"13.1000000005" 13100000001,
    fromGoodStrInexactBody L P cfg c!"13.1000000009" 13100000001,
    fromGoodStrInexactBody L P cfg
      c!"13.9999999999999999999999999999999999999999999999999999999999999" 14000000000,
    fromGoodStrInexactBody L P cfg c!"9223372036.8547758071" 9223372036854775807]

/-- Its cases, section `fp128`, `/repo/tests/it/convert_str.rs:64-111`. -/
def fromGoodStrInexact128 (L : Layout) (P : Nat) (cfg : Cfg) : List (Res Unit Unit) := [
    fromGoodStrInexactBody L P cfg c!"13.0000000000000000001" 13000000000000000000,
    fromGoodStrInexactBody L P cfg c!"13.0000000000000000005" 13000000000000000001,
    fromGoodStrInexactBody L P cfg c!"13.0000000000000000009" 13000000000000000001,
    fromGoodStrInexactBody L P cfg
      c!"13.9999999999999999999999999999999999999999999999999999999999999" 14000000000000000000,
    fromGoodStrInexactBody L P cfg c!"170141183460469231731.6873037158841057271"
      170141183460469231731687303715884105727]

theorem conf_from_good_str_inexact : 
    in64 fromGoodStrInexact64 = true ∧ in128 fromGoodStrInexact128 = true := by
  decide +kernel

/-- Body of `from_bad_str`, `/repo/tests/it/convert_str.rs:114-145`. -/
def fromBadStrBody (L : Layout) (P : Nat) (cfg : Cfg) (input : List Char) : Res Unit Unit := do
  isErr (FP.fromStrExact cfg input : Res _ (FP L P))
  isErr (FP.fromStr cfg input : Res _ (FP L P))
  isErr (FP.deserialize cfg false true (.str true input) : Res _ (FP L P))

/-- Its cases, section `all`, `/repo/tests/it/convert_str.rs:114-145`. -/
def fromBadStrAll (L : Layout) (P : Nat) (cfg : Cfg) : List (Res Unit Unit) := [
    fromBadStrBody L P cfg c!"",
    fromBadStrBody L P cfg c!"7.02e5",
    fromBadStrBody L P cfg c!"a.12",
    fromBadStrBody L P cfg c!"12.a",
    fromBadStrBody L P cfg c!"100000000000000000000000",
    fromBadStrBody L P cfg c!"170141183460469231731687303715.884105728",
    fromBadStrBody L P cfg c!"170141183460469231731.687303715884105728",
    fromBadStrBody L P cfg c!"170141183460469231731.6873037158841057275",
    fromBadStrBody L P cfg c!"-170141183460469231731.687303715884105729",
    fromBadStrBody L P cfg c!"-170141183460469231731.6873037158841057285"]

/-- Its cases, section `fp64`, `/repo/tests/it/convert_str.rs:114-145`. -/
def fromBadStr64 (L : Layout) (P : Nat) (cfg : Cfg) : List (Res Unit Unit) := [
    fromBadStrBody L P cfg c!"9223372036.854775808",
    fromBadStrBody L P cfg c!"9223372036.8547758075",
    fromBadStrBody L P cfg c!"-9223372036.854775809",
    fromBadStrBody L P cfg c!"-9223372036.8547758085"]

theorem conf_from_bad_str : inAll fromBadStrAll = true ∧ in64 fromBadStr64 = true := by
  decide +kernel

/-! ## `/repo/tests/it/convert_f64.rs` -/

/-- Body of `to_f64`, `/repo/tests/it/convert_f64.rs:9-43`. -/
def toF64Body (L : Layout) (P : Nat) (cfg : Cfg) (x : N L P) (expected : BitVec 64) : Res Unit Unit := do
  let x ← x
  gives (FP.toF64 cfg x : Res Unit _) expected

/-- Its cases, section `all`, `/repo/tests/it/convert_f64.rs:9-43`. -/
def toF64All (L : Layout) (P : Nat) (cfg : Cfg) : List (Res Unit Unit) := [
    toF64Body L P cfg (lit cfg c!"0") 0x0000000000000000,
    toF64Body L P cfg (lit cfg c!"0.1") 0x3fb999999999999a,
    toF64Body L P cfg (lit cfg c!"1") 0x3ff0000000000000,
    toF64Body L P cfg (lit cfg c!"1.5") 0x3ff8000000000000,
    toF64Body L P cfg (lit cfg c!"-5") 0xc014000000000000,
    toF64Body L P cfg (lit cfg c!"-14.14") 0xc02c47ae147ae148,
    toF64Body L P cfg (lit cfg c!"42.123456789") 0x40450fcd6e9b9cb2,
    toF64Body L P cfg (lit cfg c!"-42.123456789") 0xc0450fcd6e9b9cb2,
    toF64Body L P cfg (lit cfg c!"8003332421.536753168") 0x41fdd0929458968a,
    toF64Body L P cfg (lit cfg c!"-8003332421.536753168") 0xc1fdd0929458968a,
    toF64Body L P cfg (lit cfg c!"9223372036.854775807") 0x42012e0be826d695,
    toF64Body L P cfg (lit cfg c!"-9223372036.854775807") 0xc2012e0be826d695,
    toF64Body L P cfg (lit cfg c!"922337203.685477581") 0x41cb7cdfd9d7bdbb,
    toF64Body L P cfg (lit cfg c!"-922337203.685477581") 0xc1cb7cdfd9d7bdbb,
    toF64Body L P cfg (lit cfg c!"92233720.36854775") 0x4195fd7fe1796495,
    toF64Body L P cfg (lit cfg c!"-92233720.36854775") 0xc195fd7fe1796495]

/-- Its cases, section `fp128`, `/repo/tests/it/convert_f64.rs:9-43`. -/
def toF64128 (L : Layout) (P : Nat) (cfg : Cfg) : List (Res Unit Unit) := [
    toF64Body L P cfg (lit cfg c!"0.0000000000025") 0x3d85fd7fe1796495,
    toF64Body L P cfg (lit cfg c!"1000000.0000000000025") 0x412e848000000000,
    toF64Body L P cfg (lit cfg c!"-1000000.0000000000025") 0xc12e848000000000,
    toF64Body L P cfg (lit cfg c!"0.000000000000000025") 0x3c7cd2b297d889bc,
    toF64Body L P cfg (lit cfg c!"-0.000000000000000025") 0xbc7cd2b297d889bc,
    toF64Body L P cfg (lit cfg c!"2.1234567890123457") 0x4000fcd6e9ba37b3,
    toF64Body L P cfg (lit cfg c!"-2.1234567890123457") 0xc000fcd6e9ba37b3]

theorem conf_to_f64 : inAll toF64All = true ∧ in128 toF64128 = true := by
  decide +kernel

/-- Body of `from_f64`, `/repo/tests/it/convert_f64.rs:46-88`. -/
def fromF64Body (L : Layout) (P : Nat) (cfg : Cfg) (expected : N L P) (x : BitVec 64) : Res Unit Unit := do
  let expected ← expected
  gives (FP.tryFromF64 cfg x) expected
  let ne ← hush (FP.cneg expected)
  gives (FP.tryFromF64 cfg (x ^^^ 0x8000000000000000)) ne

/-- Its cases, section `all`, `/repo/tests/it/convert_f64.rs:46-88`. -/
def fromF64All (L : Layout) (P : Nat) (cfg : Cfg) : List (Res Unit Unit) := [
    fromF64Body L P cfg (lit cfg c!"0") 0x0000000000000000,
    fromF64Body L P cfg (lit cfg c!"0.5") 0x3fe0000000000000,
    fromF64Body L P cfg (lit cfg c!"1") 0x3ff0000000000000,
    fromF64Body L P cfg (lit cfg c!"1.5") 0x3ff8000000000000,
    fromF64Body L P cfg (lit cfg c!"42.123456789") 0x40450fcd6e9b9cb2,
    fromF64Body L P cfg (lit cfg c!"803332.421536753") 0x41288408d7d3aa50,
    fromF64Body L P cfg (lit cfg c!"8033324.21536753") 0x415ea50b0dc894e4,
    fromF64Body L P cfg (lit cfg c!"80333242.1536753") 0x41932726e89d5d0f,
    fromF64Body L P cfg (lit cfg c!"803332421.536753") 0x41c7f0f0a2c4b453,
    fromF64Body L P cfg (lit cfg c!"8033324215.36753") 0x41fded2ccb75e167,
    fromF64Body L P cfg (lit cfg c!"9223372036.85477") 0x42012e0be826d692]

/-- Its cases, section `fp128`, `/repo/tests/it/convert_f64.rs:46-88`. -/
def fromF64128 (L : Layout) (P : Nat) (cfg : Cfg) : List (Res Unit Unit) := [
    fromF64Body L P cfg (lit cfg c!"0.803332421536753") 0x3fe9b4e631ca238e,
    fromF64Body L P cfg (lit cfg c!"8.03332421536753") 0x4020110fdf1e5639,
    fromF64Body L P cfg (lit cfg c!"8.03332421536753") 0x4020110fdf1e5639,
    fromF64Body L P cfg (lit cfg c!"80.3332421536753") 0x40541553d6e5ebc7,
    fromF64Body L P cfg (lit cfg c!"803.332421536753") 0x40891aa8cc9f66b9,
    fromF64Body L P cfg (lit cfg c!"8033.32421536753") 0x40bf6152ffc74067,
    fromF64Body L P cfg (lit cfg c!"80333.2421536753") 0x40f39cd3dfdc8840,
    fromF64Body L P cfg (lit cfg c!"80333242153.6753") 0x4232b43bff29ace0,
    fromF64Body L P cfg (lit cfg c!"803332421536.753") 0x4267614afef41819,
    fromF64Body L P cfg (lit cfg c!"8033324215367.53") 0x429d399dbeb11e1f,
    fromF64Body L P cfg (lit cfg c!"80333242153675.3") 0x42d24402972eb2d3,
    fromF64Body L P cfg (lit cfg c!"803332421536753") 0x4306d5033cfa5f88,
    fromF64Body L P cfg (lit cfg c!"8033324215367530") 0x433c8a440c38f76a,
    fromF64Body L P cfg (lit cfg c!"8033324215367533") 0x433c8a440c38f76d,
    fromF64Body L P cfg (lit cfg c!"170141183460469211136") 0x4422725dd1d243ab]

theorem conf_from_f64 : inAll fromF64All = true ∧ in128 fromF64128 = true := by
  decide +kernel

/-- Body of `from_f64_exact`, `/repo/tests/it/convert_f64.rs:91-120`. -/
def fromF64ExactBody (L : Layout) (P : Nat) (cfg : Cfg) (x : BitVec 64) (expected : N L P) : Res Unit Unit := do
  let expected ← expected
  gives (FP.tryFromF64 cfg x) expected
  let ne ← hush (FP.cneg expected)
  gives (FP.tryFromF64 cfg (x ^^^ 0x8000000000000000)) ne

/-- Its cases, section `all`, `/repo/tests/it/convert_f64.rs:91-120`. -/
def fromF64ExactAll (L : Layout) (P : Nat) (cfg : Cfg) : List (Res Unit Unit) := [
    fromF64ExactBody L P cfg 0x0010000000000000 (lit cfg c!"0"),
    fromF64ExactBody L P cfg 0x3bfd83c94fb6d2ac (lit cfg c!"0"),
    fromF64ExactBody L P cfg 0x3edd0dcf42eb2e84 (lit cfg c!"0.000006927"),
    fromF64ExactBody L P cfg 0x3f1228a189d2fd13 (lit cfg c!"0.00006927"),
    fromF64ExactBody L P cfg 0x3fb999999999999a (lit cfg c!"0.1"),
    fromF64ExactBody L P cfg 0x3fbf9a6b50b0f27c (lit cfg c!"0.12345"),
    fromF64ExactBody L P cfg 0x3fe62a9930be0ded (lit cfg c!"0.6927"),
    fromF64ExactBody L P cfg 0x4014666666666666 (lit cfg c!"5.1"),
    fromF64ExactBody L P cfg 0x41d87e9dfe83e6c9 (lit cfg c!"1643804666.060961")]

/-- Its cases, section `fp64`, `/repo/tests/it/convert_f64.rs:91-120`. -/
def fromF64Exact64 (L : Layout) (P : Nat) (cfg : Cfg) : List (Res Unit Unit) := [
    fromF64ExactBody L P cfg 0x3cb0000000000000 (lit cfg c!"0"),
    fromF64ExactBody L P cfg 0x3fbf9add38fec458 (lit cfg c!"0.123456789"),
    fromF64ExactBody L P cfg 0x3fbf9add396cb7d7 (lit cfg c!"0.12345679")]

/-- Its cases, section `fp128`, `/repo/tests/it/convert_f64.rs:91-120`. -/
def fromF64Exact128 (L : Layout) (P : Nat) (cfg : Cfg) : List (Res Unit Unit) := [
    fromF64ExactBody L P cfg 0x3cb0000000000000 (lit cfg c!"0.000000000000000222"),
    fromF64ExactBody L P cfg 0x3fbf9add3746f65a (lit cfg c!"0.1234567890123456"),
    fromF64ExactBody L P cfg 0x3fbf9add3746f65f (lit cfg c!"0.1234567890123457")]

theorem conf_from_f64_exact : 
    inAll fromF64ExactAll = true ∧ in64 fromF64Exact64 = true ∧ in128 fromF64Exact128 = true := by
  decide +kernel

/-- Body of `from_f64_limits`, `/repo/tests/it/convert_f64.rs:123-138`. -/
def fromF64LimitsBody (L : Layout) (P : Nat) (cfg : Cfg) (x : BitVec 64) (expected : List Char) : Res Unit Unit := do
  match (FP.tryFromF64 cfg x : Res ConvErr (FP L P)) with
  | .err e => rustAssert (e.reason == String.ofList expected)
  | _ => .panic

/-- Its cases, section `all`, `/repo/tests/it/convert_f64.rs:123-138`. -/
def fromF64LimitsAll (L : Layout) (P : Nat) (cfg : Cfg) : List (Res Unit Unit) := [
    fromF64LimitsBody L P cfg 0x7ff8000000000000 c!"not finite",
    fromF64LimitsBody L P cfg 0x7ff0000000000000 c!"not finite",
    fromF64LimitsBody L P cfg 0xfff0000000000000 c!"not finite",
    fromF64LimitsBody L P cfg 0x7fefffffffffffff c!"too big number",
    fromF64LimitsBody L P cfg 0xffefffffffffffff c!"too big number"]

theorem conf_from_f64_limits : inAll fromF64LimitsAll = true := by
  decide +kernel

/-! ## `/repo/tests/it/serde.rs` -/

/-- Body of `display_and_serde`, `/repo/tests/it/serde.rs:8-32`. -/
def displayAndSerdeBody (L : Layout) (P : Nat) (cfg : Cfg) (x : N L P) (expected : List Char) : Res Unit Unit := do
  let x ← x
  gives (FP.display cfg x : Res Unit _) expected
  gives (FP.serialize cfg true x : Res Unit _) (.str expected)

/-- Its cases, section `all`, `/repo/tests/it/serde.rs:8-32`. -/
def displayAndSerdeAll (L : Layout) (P : Nat) (cfg : Cfg) : List (Res Unit Unit) := [
    displayAndSerdeBody L P cfg (lit cfg c!"0") c!"0.0",
    displayAndSerdeBody L P cfg (lit cfg c!"42") c!"42.0",
    displayAndSerdeBody L P cfg (lit cfg c!"10.042") c!"10.042",
    displayAndSerdeBody L P cfg (lit cfg c!"-10.042") c!"-10.042",
    displayAndSerdeBody L P cfg (lit cfg c!"0.000000001") c!"0.000000001",
    displayAndSerdeBody L P cfg (lit cfg c!"-0.000000001") c!"-0.000000001",
    displayAndSerdeBody L P cfg (lit cfg c!"9223372036.854775807") c!"9223372036.854775807",
    displayAndSerdeBody L P cfg (lit cfg c!"-9223372036.854775808") c!"-9223372036.854775808"]

/-- Its cases, section `fp128`, `/repo/tests/it/serde.rs:8-32`. -/
def displayAndSerde128 (L : Layout) (P : Nat) (cfg : Cfg) : List (Res Unit Unit) := [
    displayAndSerdeBody L P cfg (lit cfg c!"0.000000000000000001") c!"0.000000000000000001",
    displayAndSerdeBody L P cfg (lit cfg c!"-0.000000000000000001") c!"-0.000000000000000001",
    displayAndSerdeBody L P cfg (lit cfg c!"170141183460469231731.687303715884105727")
      c!"170141183460469231731.687303715884105727",
    displayAndSerdeBody L P cfg (lit cfg c!"-170141183460469231731.687303715884105728")
      c!"-170141183460469231731.687303715884105728"]

theorem conf_display_and_serde : 
    inAll displayAndSerdeAll = true ∧ in128 displayAndSerde128 = true := by
  decide +kernel

/-- What `serde_json` delivers for a number: an integer without a point, an `f64` with one.  Only
the texts of the test `/repo/tests/it/serde.rs:35-55`. -/
def jsonNumber (s : List Char) : Content :=
  if s = c!"42" then .uint 64 42
  else if s = c!"-42" then .int 64 (-42)
  else if s = c!"42.0" then .f64 0x4045000000000000
  else if s = c!"-42.0" then .f64 0xc045000000000000
  else if s = c!"42.1" then .f64 0x40450ccccccccccd
  else .f64 0xc0450ccccccccccd

/-- What `serde_json` reads where it has written a token: a text without escapes is borrowed, an
integer is unsigned if possible, a missing value is `null`.  As at `/repo/tests/it/serde.rs:103-116`. -/
def _root_.Fixnum.SerToken.json : SerToken → Content
  | .str s => .str true s
  | .int w v => if 64 < w then .int w v else if 0 ≤ v then .uint 64 v.toNat else .int 64 v
  | .f64 b => .f64 b
  | .none => .unit
  | .some t => t.json

/-- Body of `deserialize`, `/repo/tests/it/serde.rs:35-55`. -/
def deserializeBody (L : Layout) (P : Nat) (cfg : Cfg) (json : List Char) (expected : N L P) : Res Unit Unit := do
  let expected ← expected
  gives (FP.deserialize cfg false true (jsonNumber json)) expected
  gives (FP.deserialize cfg false true (.str true json)) expected

/-- Its cases, section `all`, `/repo/tests/it/serde.rs:35-55`. -/
def deserializeAll (L : Layout) (P : Nat) (cfg : Cfg) : List (Res Unit Unit) := [
    deserializeBody L P cfg c!"42" (lit cfg c!"42"),
    deserializeBody L P cfg c!"-42" (lit cfg c!"-42"),
    deserializeBody L P cfg c!"42.0" (lit cfg c!"42"),
    deserializeBody L P cfg c!"-42.0" (lit cfg c!"-42"),
    deserializeBody L P cfg c!"42.1" (lit cfg c!"42.1"),
    deserializeBody L P cfg c!"-42.1" (lit cfg c!"-42.1")]

theorem conf_deserialize : inAll deserializeAll = true := by
  decide +kernel

/-- Body of `serde_with`, `/repo/tests/it/serde.rs:58-130`. -/
def serdeWithBody (L : Layout) (P : Nat) (cfg : Cfg) (x : N L P) : Res Unit Unit := do
  let x ← x
  let repr ← (FP.reprSerialize x : Res Unit _)
  let str ← (FP.strSerialize cfg x : Res Unit _)
  let float ← (FP.floatSerialize cfg x : Res Unit _)
  let text ← (FP.display cfg x : Res Unit _)
  let double ← (FP.toF64 cfg x : Res Unit _)
  rustAssert (repr == .int L.bits x.intoBits.toInt && str == .str text && float == .f64 double)
  gives (FP.reprDeserialize repr.json) x
  gives (FP.strDeserialize cfg str.json) x
  gives (FP.floatDeserialize cfg float.json) x

/-- Its cases, section `all`, `/repo/tests/it/serde.rs:58-130`. -/
def serdeWithAll (L : Layout) (P : Nat) (cfg : Cfg) : List (Res Unit Unit) := [
    serdeWithBody L P cfg (lit cfg c!"0"),
    serdeWithBody L P cfg (lit cfg c!"1"),
    serdeWithBody L P cfg (lit cfg c!"1.1"),
    serdeWithBody L P cfg (lit cfg c!"1.02"),
    serdeWithBody L P cfg (lit cfg c!"-1.02"),
    serdeWithBody L P cfg (lit cfg c!"0.1234"),
    serdeWithBody L P cfg (lit cfg c!"-0.1234")]

theorem conf_serde_with : inAll serdeWithAll = true := by
  decide +kernel

/-- Body of `serde_with_option`, `/repo/tests/it/serde.rs:133-206`. -/
def serdeWithOptionBody (L : Layout) (P : Nat) (cfg : Cfg) (x : Option (N L P)) : Res Unit Unit := do
  let x ← match x with
    | none => .ok none
    | some r => mapOk r some
  let repr ← (FP.reprOptionSerialize x : Res Unit _)
  let str ← (FP.strOptionSerialize cfg x : Res Unit _)
  let float ← (FP.floatOptionSerialize cfg x : Res Unit _)
  gives (FP.reprOptionDeserialize repr.json) x
  gives (FP.strOptionDeserialize cfg str.json) x
  gives (FP.floatOptionDeserialize cfg float.json) x

/-- Its cases, section `all`, `/repo/tests/it/serde.rs:133-206`. -/
def serdeWithOptionAll (L : Layout) (P : Nat) (cfg : Cfg) : List (Res Unit Unit) := [
    serdeWithOptionBody L P cfg none,
    serdeWithOptionBody L P cfg (some (lit cfg c!"0")),
    serdeWithOptionBody L P cfg (some (lit cfg c!"1")),
    serdeWithOptionBody L P cfg (some (lit cfg c!"1.1")),
    serdeWithOptionBody L P cfg (some (lit cfg c!"1.02")),
    serdeWithOptionBody L P cfg (some (lit cfg c!"-1.02")),
    serdeWithOptionBody L P cfg (some (lit cfg c!"0.1234")),
    serdeWithOptionBody L P cfg (some (lit cfg c!"-0.1234"))]

theorem conf_serde_with_option : inAll serdeWithOptionAll = true := by
  decide +kernel

end Fixnum.Conformance
