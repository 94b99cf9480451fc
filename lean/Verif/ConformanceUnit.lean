import Verif.Conformance
import Verif.ImplOp

/-!
# The crate's unit tests and documentation examples, run on the model

Continues `Conformance.lean`: `/repo/src/i256/mod.rs`, `/repo/src/i256/u256.rs`,
`/repo/src/power_table.rs`, `/repo/src/const_fn.rs`, `/repo/tests/it/const_ctor`, the `quick-xml` test,
`/repo/examples/usage.rs` and the assertions in the documentation comments.
-/

namespace Fixnum.Conformance

open Res

/-- The bytes of a literal in ASCII. -/
def bytes (s : List Char) : List Nat := s.map Char.toNat

/-- A list of asserts in every build. -/
def inBuilds (c : Cfg → List (Res Unit Unit)) : Bool := builds.all fun cfg => (c cfg).all passes

/-! ## `/repo/src/i256` -/

/-- An `i128` as an `I256`, as at `/repo/src/i256/mod.rs:211-212`. -/
def wide (z : Int) : I256 := I256.fromI128 (BitVec.ofInt 128 z)

/-- `assert_eq!(i128::try_from(x).unwrap(), z)`, as at `/repo/src/i256/mod.rs:224`. -/
def narrow (x : I256) (z : Int) : Res Unit Unit := gives (I256.tryToI128 x) (BitVec.ofInt 128 z)

theorem conf_i256_bounds :
    passes (narrow I256.i128Min (-2 ^ 127)) ∧ passes (narrow I256.i128Max (2 ^ 127 - 1)) ∧
    [0, 1, -1, 2 ^ 127 - 1, 2 ^ 127 - 2, -2 ^ 127, -2 ^ 127 + 1].all
      (fun z => passes (narrow (wide z) z)) := by
  decide +kernel

theorem conf_i256_cmp :
    [(5, 3, Ordering.gt), (-5, -5, .eq), (0, -5, .gt)].all (fun (a, b, o) =>
      I256.cmp (wide a) (wide b) == o && I256.cmp (wide b) (wide a) == o.swap) := by
  decide +kernel

/-- `neg_i128`, `/repo/src/i256/mod.rs:235-245`. -/
def negI128Body (cfg : Cfg) (z : Int) : Res Unit Unit := do
  narrow (← I256.neg cfg (wide z)) (-z)
  narrow (← I256.neg cfg (wide (-z))) z

theorem conf_i256_neg_i128 :
    inBuilds fun cfg => [0, 1, 1234, 123456789987].map (negI128Body cfg) := by
  decide +kernel

/-- `neg_i256`, `/repo/src/i256/mod.rs:247-269`. -/
def negI256Body (cfg : Cfg) (x e : I256) : Res Unit Unit := do
  let a ← I256.neg cfg x
  rustAssert (decide (a = e))
  let b ← I256.neg cfg a
  rustAssert (decide (b = x))

theorem conf_i256_neg_i256 :
    inBuilds fun cfg => [
      negI256Body cfg I256.max ⟨⟨1, 0, 0, I256.signMask⟩⟩,
      negI256Body cfg
        ⟨⟨0xa869bc02ecba4436, 0x5ef3b3e75daa96ce, 0x369a22b07ff5955b, 0x8aa9fa9e77c42900⟩⟩
        ⟨⟨0x579643fd1345bbca, 0xa10c4c18a2556931, 0xc965dd4f800a6aa4, 0x75560561883bd6ff⟩⟩] := by
  decide +kernel

/-- `neg_i256_min`, `/repo/src/i256/mod.rs:271-275`; the tests are built with debug assertions. -/
theorem conf_i256_neg_min :
    (I256.neg ⟨true, true, true, true⟩ I256.min : Res Unit I256) = .panic := by
  decide +kernel

/-- `add`, `sub`, `mul`, `div`, `/repo/src/i256/mod.rs:277-335`. -/
def addBody (cfg : Cfg) (a b e : Int) : Res Unit Unit := do
  let na ← I256.neg cfg (wide a)
  let nb ← I256.neg cfg (wide b)
  narrow (I256.add (wide a) (wide b)) e
  narrow (I256.add (wide b) (wide a)) e
  narrow (I256.add na nb) (-e)
  narrow (I256.add nb na) (-e)

@[inherit_doc addBody] def subBody (cfg : Cfg) (a b e : Int) : Res Unit Unit := do
  let na ← I256.neg cfg (wide a)
  let nb ← I256.neg cfg (wide b)
  narrow (I256.sub (wide a) (wide b)) e
  narrow (I256.sub (wide b) (wide a)) (-e)
  narrow (I256.sub na nb) (-e)
  narrow (I256.sub nb na) e

@[inherit_doc addBody] def mulBody (cfg : Cfg) (a b e : Int) : Res Unit Unit := do
  let na ← I256.neg cfg (wide a)
  let nb ← I256.neg cfg (wide b)
  narrow (← I256.mul cfg (wide a) (wide b)) e
  narrow (← I256.mul cfg (wide b) (wide a)) e
  narrow (← I256.mul cfg na nb) e
  narrow (← I256.mul cfg nb na) e

@[inherit_doc addBody] def divBody (cfg : Cfg) (a b e : Int) : Res Unit Unit := do
  let na ← I256.neg cfg (wide a)
  let nb ← I256.neg cfg (wide b)
  narrow (← I256.div cfg (wide a) (wide b)) e
  narrow (← I256.div cfg na nb) e

theorem conf_i256_arith :
    inBuilds fun cfg => [
      addBody cfg 0 0 0, addBody cfg 1111 3210 4321, addBody cfg (-1111) 5432 4321,
      addBody cfg (-4321) 5432 1111,
      subBody cfg 0 0 0, subBody cfg 4321 1111 3210, subBody cfg 4321 (-1111) 5432,
      subBody cfg 1111 (-4321) 5432,
      mulBody cfg 0 0 0, mulBody cfg 7 5 35, mulBody cfg (-7) 5 (-35),
      divBody cfg 0 1 0, divBody cfg 35 5 7, divBody cfg (-35) 5 (-7)] := by
  decide +kernel

/-- `leading_zeros`, `/repo/src/i256/u256.rs:854-867`. -/
theorem conf_u256_leading_zeros :
    [(0, 256), (1, 255), (2, 254), (2 ^ 127, 128), (2 ^ 128 - 1, 128), (2 ^ 117, 138),
        ((2 ^ 128 - 1) / 2 ^ 10, 138)].all (fun ((x : Nat), (n : Nat)) =>
      U256.leadingZeros (U256.ofU128 (BitVec.ofNat 128 x)) == n) := by
  decide +kernel

/-! ## `/repo/src/power_table.rs:758-782` -/

theorem conf_power_of_10 :
    powerOf10 0 = some 1 ∧ powerOf10 1 = some 10 ∧ powerOf10 2 = some 100 ∧
    powerOf10 20 = some 100000000000000000000 ∧ powerOf10 39 = none := by
  decide +kernel

theorem conf_rdiv_by_exponent_10 :
    inBuilds fun cfg =>
      [(987659, 0, 987659), (123444444, 6, 123), (123444445, 6, 124), (2 ^ 128 - 1, 40, 0),
        (123444445, 39, 0)].map fun (x, e, q) =>
          gives (rdivByExponent10 cfg x e : Res Unit Nat) q := by
  decide +kernel

/-! ## Constants: `/repo/src/const_fn.rs:116-128`, `/repo/tests/it/const_ctor` -/

theorem conf_parse_fixed :
    inBuilds fun cfg =>
      [(c!"1", 1000000000), (c!"1.1", 1100000000), (c!"1.02", 1020000000),
        (c!"-1.02", -1020000000), (c!"+1.02", 1020000000),
        (c!"123456789.123456789", 123456789123456789),
        (c!"9223372036.854775807", 9223372036854775807),
        (c!"0.1234", 123400000), (c!"-0.1234", -123400000)].map fun (s, z) =>
          gives (parseFixed cfg (bytes s) (BitVec.ofInt _ 1000000000) : Res Unit _)
            (BitVec.ofInt _ z) := by
  decide +kernel

/-- `valid`, `/repo/tests/it/const_ctor/mod.rs:1-16`: literal, mantissa, exponent. -/
theorem conf_const_valid :
    inBuilds fun cfg =>
      [(c!"42.42", 4242, -2), (c!"42", 42, 0), (c!"42.", 42, 0)].map fun (s, m, e) => (do
        let x ← (fixnumConst cfg .i64 9 (bytes s) : Res Unit _)
        gives (FP.fromDecimal cfg (BitVec.ofInt _ m) e) x) := by
  decide +kernel

/-- `too_long_fractional.rs`: `fixnum_const!(0.1234567891, 9)` does not compile. -/
theorem conf_const_too_long :
    builds.all fun cfg =>
      !passes (do
        let _ ← (fixnumConst cfg .i64 9 (bytes c!"0.1234567891") : Res Unit _)
        .ok ()) := by
  decide +kernel

/-- The documented constant `fixnum_const!(12.34, 9)`, `/repo/src/macros.rs:159`. -/
theorem conf_const_doc :
    inBuilds fun cfg =>
      [gives (fixnumConst cfg .i64 9 (bytes c!"12.34") : Res Unit _) ⟨12340000000⟩] := by
  decide +kernel

/-! ## `quickxml`, `/repo/tests/it/serde.rs:202-221` -/

/-- An attribute and an element with text are delivered as text, the document itself as a map with
the key `$value`. -/
theorem conf_quickxml :
    inBuilds fun cfg =>
      [Content.str false c!"42", .str true c!"42",
        .map [(.str true c!"$value", .str false c!"42")]].map fun c => (do
          let x ← (fixnumConst cfg .i64 9 (bytes c!"42") : Res Unit _)
          gives (FP.deserialize cfg true true c) x) := by
  decide +kernel

/-! ## Documentation examples, all for `FixedPoint<i64, U9>` -/

/-- `"…".parse()?`. -/
def amount (cfg : Cfg) (s : List Char) : Res Unit (FP .i64 9) := hush (FP.fromStr cfg s)

/-- `/repo/src/lib.rs:39-47`. -/
def docCrate (cfg : Cfg) : Res Unit Unit := do
  let a ← amount cfg c!"0.1"
  let b ← amount cfg c!"0.2"
  let c ← amount cfg c!"0.3"
  gives (FP.cadd a b) c
  let e ← amount cfg c!"0.000000001"
  gives (FP.rmul cfg e e .floor) FP.zero
  gives (FP.rmul cfg e e .ceil) e

/-- `/repo/src/ops/mod.rs:43-46,115-118`. -/
def docAddSub (cfg : Cfg) : Res Unit Unit := do
  let a ← amount cfg c!"0.1"
  let b ← amount cfg c!"0.2"
  let c ← amount cfg c!"0.3"
  gives (FP.cadd a b) c
  gives (FP.csub c a) b

/-- `/repo/src/ops/mod.rs:63-74`. -/
def docSaturatingAdd (cfg : Cfg) : Res Unit Unit := do
  let a ← amount cfg c!"1000.00002"
  let b ← amount cfg c!"9222000000"
  let c ← amount cfg c!"9222001000.00002"
  rustAssert (FP.saturatingAdd a b == c)
  rustAssert (FP.saturatingAdd c c == FP.max)
  let d ← amount cfg c!"-9222000000"
  rustAssert (FP.saturatingAdd d d == FP.min)

/-- `/repo/src/ops/mod.rs:135-146`. -/
def docSaturatingSub (cfg : Cfg) : Res Unit Unit := do
  let a ← amount cfg c!"9222001000.00002"
  let b ← amount cfg c!"9222000000"
  let c ← amount cfg c!"1000.00002"
  rustAssert (FP.saturatingSub a b == c)
  let d ← amount cfg c!"-9222000000"
  rustAssert (FP.saturatingSub b d == FP.max)
  rustAssert (FP.saturatingSub d b == FP.min)

/-- `/repo/src/ops/mod.rs:188-191,209-219`. -/
def docMul (cfg : Cfg) : Res Unit Unit := do
  let a ← amount cfg c!"0.000000001"
  let b ← amount cfg c!"0.000000012"
  gives (FP.cmul a (int .i64 12)) b
  gives (FP.intCmul (int .i64 12) a) b
  rustAssert (FP.saturatingMul a (int .i64 12) == b)
  rustAssert (FP.intSaturatingMul (int .i64 12) a == b)
  rustAssert (FP.saturatingMul a (int .i64 (iMax 64)) == FP.max)
  let c ← amount cfg c!"-1.000000001"
  rustAssert (FP.saturatingMul c (int .i64 (iMax 64)) == FP.min)

/-- `/repo/src/ops/mod.rs:277-284,306-318`. -/
def docRmul (cfg : Cfg) : Res Unit Unit := do
  let a ← amount cfg c!"0.000000001"
  let b ← amount cfg c!"0.000000002"
  gives (FP.rmul cfg a b .ceil) a
  gives (FP.rmul cfg b a .ceil) a
  gives (FP.rmul cfg a b .floor) FP.zero
  gives (FP.rmul cfg b a .floor) FP.zero
  gives (FP.saturatingRmul cfg a b .ceil : N .i64 9) a
  gives (FP.saturatingRmul cfg a b .floor : N .i64 9) FP.zero
  gives (FP.saturatingRmul cfg FP.min FP.min .floor : N .i64 9) FP.max
  let c ← amount cfg c!"-1.000000001"
  gives (FP.saturatingRmul cfg c FP.max .ceil : N .i64 9) FP.min

/-- `/repo/src/ops/mod.rs:364-369`. -/
def docRdiv (cfg : Cfg) : Res Unit Unit := do
  let a ← amount cfg c!"0.000000001"
  let b ← amount cfg c!"1000000000"
  gives (FP.rdiv cfg a b .ceil) a
  gives (FP.rdiv cfg a b .floor) FP.zero

/-- `/repo/src/lib.rs:487-495`. -/
def docIntegral (cfg : Cfg) : Res Unit Unit := do
  let a ← amount cfg c!"8273.519"
  gives (FP.integral cfg a .floor : Res Unit _) (int .i64 8273)
  gives (FP.integral cfg a .nearest : Res Unit _) (int .i64 8274)
  gives (FP.integral cfg a .ceil : Res Unit _) (int .i64 8274)
  let a ← amount cfg c!"-8273.519"
  gives (FP.integral cfg a .floor : Res Unit _) (int .i64 (-8274))
  gives (FP.integral cfg a .nearest : Res Unit _) (int .i64 (-8274))
  gives (FP.integral cfg a .ceil : Res Unit _) (int .i64 (-8273))

/-- `/repo/src/lib.rs:600-606`. -/
def docRsqrt (cfg : Cfg) : Res Unit Unit := do
  let a ← amount cfg c!"81"
  let b ← amount cfg c!"2"
  let c ← amount cfg c!"-100"
  gives (FP.rsqrt cfg a .floor) (← amount cfg c!"9")
  gives (FP.rsqrt cfg b .floor) (← amount cfg c!"1.414213562")
  gives (FP.rsqrt cfg b .ceil) (← amount cfg c!"1.414213563")
  fails (FP.rsqrt cfg c .floor) .domainViolation

theorem conf_doc :
    inBuilds fun cfg => [docCrate cfg, docAddSub cfg, docSaturatingAdd cfg, docSaturatingSub cfg,
      docMul cfg, docRmul cfg, docRdiv cfg, docIntegral cfg, docRsqrt cfg] := by
  decide +kernel

/-- `/repo/examples/usage.rs:35-44` and `/repo/src/lib.rs:105-108`: `Size(4)` times `Price(4.25)`, and
`Price(4.25)` times `Ratio(0.5)`. -/
def usage (cfg : Cfg) : Res Unit Unit := do
  let price ← (fixnumConst cfg .i64 9 (bytes c!"4.25") : Res Unit _)
  let half ← (fixnumConst cfg .i64 9 (bytes c!"0.5") : Res Unit _)
  let total ← (fixnumConst cfg .i64 9 (bytes c!"17") : Res Unit _)
  let e ← (fixnumConst cfg .i64 9 (bytes c!"2.125") : Res Unit _)
  gives (mapOk (ImplOp.cmul (.intFp 32 .i64 9 (by decide) (by decide)) (.self .i64 9) (.intFp .i64 9)
    ⟨(4 : BitVec 32)⟩ ⟨price⟩) Wrapper.val) total
  gives (mapOk (ImplOp.rmul cfg (.self .i64 9) (.self .i64 9) (.fp .i64 9) ⟨price⟩ ⟨half⟩ .ceil)
    Wrapper.val) e

theorem conf_usage : inBuilds fun cfg => [usage cfg] := by
  decide +kernel

end Fixnum.Conformance
