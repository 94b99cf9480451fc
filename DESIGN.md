# Formal model of loyd/fixnum — design

The code under study is the Rust crate in `/repo` (`src/`).  The model is written in Lean 4 under
`lean/Verif/`; `lake build` in `lean/` re-checks every proof.  Properties are listed in
`properties.jsonl`, the property → theorem map is `MANIFEST.json`, the mutation log is
`seeded/LOG.jsonl`.

## 1. What is modelled

Model files (every definition cites the lines it models):

| code | model file | what |
|---|---|---|
| Rust integer semantics (language, `core`) | `Machine.lean` | two's complement words `BitVec w`; overflow-checked and wrapping `+ - * neg abs pow`; `checked_*`, `saturating_*`, casts, shifts, `/` and `%`; outcomes `Res` |
| `src/errors.rs` | `Errors.lean` | `ArithmeticError` with `as_str`, `ConvertError` with its reason |
| `src/lib.rs` types | `Layout.lean` | `RoundMode` and discriminants, the four layouts, `FixedPoint` and its accessors |
| `src/i256/u256.rs` | `U256.lean` | limb by limb, four 64-bit words: carries, schoolbook product, `div_mod_word`, `div_mod_small`, Knuth D, shifts, comparison |
| the same, operators nothing in the crate calls | `U256Ops.lean` | `<<`, `>>` with a converted amount, product with a primitive, conversions |
| `src/i256/mod.rs` | `I256.lean` | sign handling, add/sub/mul/div/neg/cmp, conversions from and to `i128`/`u128` |
| `src/ops/sqrt.rs`, `Sqrt` of `U256`/`I256` | `Sqrt.lean` | Newton fixpoint, both initial guesses (std: conversion to `f64` and square root; no_std: bit length), the 128/256-bit recursion |
| `src/ops/mod.rs` | `Ops.lean` | integer `cadd/csub/cmul/rdiv`, promotion types as an interface `PromOps` with four instances |
| `src/const_fn.rs` `pow10` | `ConstFn.lean` | table, loop, truncating cast to `COEF` |
| `src/power_table.rs` | `PowerTable.lean` | all tables verbatim |
| `src/lib.rs` macro `impl_fixed_point!` | `FixedPoint.lean` | every method, once for all layouts; default `saturating_rmul` |
| `src/const_fn.rs` parser, `src/macros.rs` `fixnum!`, `fixnum_const!` | `Literal.lean` | byte lists; only `ok` means "compiles" |
| `src/string.rs` | `Strings.lean` | `parse_str`, `stringify`, the unsafe `StrBuf`, on characters |
| the same | `Bytes.lean` | again on UTF-8 bytes: byte lengths, indices, slices at character boundaries, the array with unchecked writes |
| `src/float.rs`, `power_of_10`, `rdiv_by_exponent_10` | `Float.lean` | decoding of the 64-bit pattern and `TryFrom<f64>` |
| `From<FixedPoint> for f64` | `FloatOps.lean` | `as f64`, `/`, `+` as exact result rounded to nearest, ties to even |
| `src/parity.rs` | `Codec.lean`, `Compact.lean` | SCALE encoding, decoding, compact form |
| `src/serde.rs` | `Serde.lean` | tokens produced; visitors on contents delivered; modules `repr`, `str`, `float` and their `_option` forms |
| `src/macros.rs` `impl_op!`, provided trait methods | `ImplOp.lean` | operand promotion and every operation, for every invocation that compiles |
| `src/serde.rs` modules, `fixnum!`, `$res::from` of `impl_op!`, for user types | `Wrap.lean` | the same functions generic in a type with `Into` and `From` |
| the other side of `serde.rs`, `parity.rs`, `Display` | `Io.lean` | the same functions with serializers, formatters, deserializers, inputs and outputs that may fail |
| `Display`, `Debug` with format flags | `Formatter.lean` | `Formatter` with flags and any writer |
| `src/ops/mod.rs` provided `saturating_*` | `Provided.lean` | the default bodies, over an arbitrary implementor |
| derives of `FixedPoint`, `src/errors.rs` `Display`, `src/schemars.rs` | `Derived.lean` | `Default`, `Ord::max/min/clamp`, the data fed to a hasher, error texts, instance type of the schema |

Specification (independent of how the code computes):

| file | what |
|---|---|
| `Spec.lean` | `value` (the rational denoted), `Valid`, `round`, `roundTo`, `Representable`, `ExactOr`, `clamp` |
| `TextSpec.lean` | decimal literals: text, denoted number, canonical form, Unicode white space |
| `FloatSpec.lean` | the rational denoted by a binary64 pattern, nearest-even rounding, the decimal cut |

Lemma files: `SpecBasic`, `CoefBasic`, `OpsBasic`, `PromBasic`, `U256Basic`, `U256DivWord`,
`U256Knuth`, `U256Shift`, `U256OpsBasic`, `I256Basic`, `I256Total`, `SqrtBasic`, `RsqrtBasic`, `IntegralBasic`, `PowerBasic`,
`StringsBasic`, `ParseBasic`, `DisplayBasic`, `DisplayExact`, `LiteralBasic`, `FloatBasic`, `FloatCore`,
`FloatOpsBasic`, `FloatMono`, `FloatExact`, `FloatRoundTrip`, `FloatHits`, `FloatClosed`, `FloatFaithful`, `SqrtGuessBasic`, `BytesBasic`, `Refine`, `RefineText`, `RefineFloat`, `RefineSerde`.  The property theorems are in `Props/*.lean`,
each theorem with hypotheses followed by an `example` that applies it to concrete values meeting them.

### Build profiles
`Cfg` has four booleans: `overflowChecks`, `debugAssertions`, `std`, `i128` (the last two are crate
features).  Theorems quantify over all of them.  With `overflowChecks = true` an overflowing
`+ - * neg abs pow <<` is a panic, with `false` it wraps.  Division by zero and `MIN / -1` panic in
both.  `debug_assert!` panics iff `debugAssertions`.

### Outcomes
`Res ε α = ok a | err e | fault f` with `f = panic | diverge | ub`.  Nothing is totalised: an index
out of bounds, a failed `unwrap`, an assertion, an exhausted loop bound, or an unchecked write
outside the buffer is a distinct outcome; "never panics" means that the outcome is `ok` or `err`.

### Layouts, precisions, values
`Layout = i16 | i32 | i64 | i128`; `FP L P` is one two's-complement word of `L.bits` bits.
`P : ℕ` is the typenum precision.  `value x = raw / 10^P` as a rational.  Theorems assume
`Valid cfg L P` (`10^P ≤ MAX`, and the feature `i128` for the layout `i128`) unless they are about
the other precisions (C53) or do not need it.  `COEF` itself is not assumed: it is computed by the
model of `pow10` followed by the truncating cast and proved equal to `10^P` (C52).

## 2. What is not modelled
* The Rust compiler, LLVM, memory layout, `#[repr(transparent)]`, inlining.  (`usize` is
  64 bits wide in `Float.lean`; `Platform.lean` proves that any width from 32 bits on gives the same.)
* Hash functions (the data written to the hasher is modelled), `std::error::Error`.
* External code, modelled after its documentation: `itoa`, `str::trim`, `str::split_once`,
  `str::parse::<iN>`, `typenum` (a precision is a number), `serde` (data model, `Unexpected`,
  primitive `Deserialize` impls, `IgnoredAny`), `parity-scale-codec` (little-endian and compact integers).
  A serializer, formatter, deserializer, input or output that fails is any function (C111).
* Hardware/libm: `as f64`, `/`, `+`, `sqrt` on `f64` are assumed IEEE-754, round to nearest even.
  What that means for the model is proved: C46 (`as f64`, `/`, `+`), C99 (`sqrt`).
* Unused code: the by-reference and assigning forms of the `U256`/`I256` operators (they only
  dereference) and their derived `Debug` and `Hash`.
* `benches`.  `tests` and `examples` are not part of the model but are run on it, see section 6.

## 3. Trusted base
* The Lean 4 kernel.  No axioms of our own, no `sorry`, no `native_decide`, no `bv_decide`.
  `#print axioms` of every property theorem gives a subset of `propext`, `Classical.choice`,
  `Quot.sound`.
* The transcription of the Rust text into Lean, with the simplifications stated at the definitions.
* The assumptions on `std`, `serde`, `parity-scale-codec`, `itoa` and IEEE-754 listed in section 2.
* `Spec.lean`, `TextSpec.lean`, `FloatSpec.lean`, `inBuffer` in `DisplayExact.lean` and the definitions in `Props/` that state what the
  properties mean.

## 4. Properties
M: what is modelled; P: how it is proved.  "Partial" means that the full statement is false of the
code (the negation is proved with a concrete witness, theorem names ending in `_false`) and the
theorem ending in `_partial` is restricted to the stated domain.

* C01–C06 checked and saturating operations.  M `Machine`, `Ops`, `FixedPoint`.  P integer range
  arithmetic; no hypothesis on the precision is needed.
* C07 rmul.  M the macro body over `PromOps`, instances for `i32`, `i64`, `i128`, limb-level `I256`.
  P truncated quotient plus remainder test equals rounding of the rational.  Partial: `Nearest` on
  `FixedPoint<i128, U38>`.  The exact panic condition (`C07_rmul_panics_iff`) and the release result
  outside it (`C07_rmul_wrapped`) are proved, so the behaviour is determined for all inputs.
* C08 symmetry of rmul: complete.  C09 saturating_rmul: partial like C07, with
  the same exact panic condition and release result.
* C10 rdiv Floor/Ceil: complete.  C11 rdiv Nearest: partial (`loss + loss` and `rhs.abs()`
  overflow); panic condition and wrapped result proved exactly.
* C12, C14 integer divisors: partial (`MIN / -1` panics; Nearest as C11); panic condition and wrapped
  result proved exactly.  C13, C15: as C11, likewise exactly.
* C16 half_sum complete; C17 ties: partial (both operands negative), exact behaviour proved.
* C18 integral, C19 floor/ceil/round: partial (`MIN`; Nearest on i128/U38); panic condition and
  release result proved exactly.
* C20 round_towards_zero_by, C21 next_power_of_ten: complete.  P tables by kernel evaluation over
  the whole table plus a bit-length argument.
* C22, C23 rsqrt: complete, against the real square root.  P Newton fixpoint theorem for every
  admissible guess, recursion theorem for the wide types, bounds on both guesses.
* C24 from_decimal: partial (`ten.pow` overflows; the panic and the wrapped result are determined).  C25, C26 to_decimal, C27 TryFrom integers:
  complete.
* C28 Display, C30 round trip: complete on their quantifier (precision ≥ 1, not i128/U38).
  C29 no write outside the buffer: partial (precision 0 and i128/U38 do write outside it).  Outside
  these quantifiers `Props/Printing.lean` determines the outcome for every number and build: the text
  where nothing overflows, the panics, the wrapped texts, and exactly which numbers write outside the
  buffer (`C29_display_ub_iff`).
* C31–C33 parsing: complete for every character list.
* C34, C35 `fixnum_const!`: partial (compile-time overflow; `as _` truncation; release wrap-around).
  Whether a well-formed literal compiles is determined exactly, with overflow checks
  (`C34_compiles_iff`) and without (`C34_compiles_release_iff`), and so is the raw value it then has
  (`C35_value_representable_partial`, `C35_value_release_exact`).
* C36–C38 I256/U256: complete, limb level (also the outcome for `I256::MIN` and overflowing products).  P value function Σ wᵢ·2^(64 i); Knuth D by the standard
  two-digit estimate lemma, add-back included.
* C39 profile independence: complete.  P a refinement relation (`Refines`): with checks the outcome is
  a panic or the same as without; proved compositionally for every operation (`Refine*.lean`), plus
  equality on the domains of the other properties.
* C40–C42, C44 TryFrom<f64>: complete.  C43, C45: partial (`MIN` rejected, and never made from any `f64`
  [`C43_never_min`]; the threshold 44…4 is not nearest).  P exact decimal arithmetic on the table entries, error bounds over ℚ; tables by kernel
  evaluation.
* C46 conversion to f64: complete.  C47 round trip: partial (`MIN`, which is
  rejected [`C47_min_rejected`, layouts up to 64 bits, every precision]).  P half-ulp bounds of the two roundings against the exact window of C64; the bound 4·10^15
  is nearly sharp (counterexample at 4.027·10^15).
* C48 SCALE, C50 serde input, C61 serde float modules: complete.  C49: partial (`str` modules need
  borrowed strings; i128/U38 in human-readable form).
* C51 impl_op: partial where the wrapped operation is (C07, C11, C12, C14).  `C51_compiles` lists the
  invocations that compile (the impls are the constructors of inductive types in `ImplOp.lean`).
* C52, C54, C57–C60: complete.  C53: false, partial for precisions that fit; the
  coefficient of every type that compiles is determined (10^P modulo 2^BITS), and with it exactly which
  types are affected; for P ≥ BITS it is 0 and every product panics.
* C62 order of the conversion to f64: complete.  P monotonicity of the three roundings, and a parity
  argument across the step from one integral part to the next.
* C63, C64 order and exact form of TryFrom<f64>: complete.  P each stage is determined exactly
  (`stages_cut`, `stages_exact`): the cut is a monotone function of the scaled number; distinct `f64`
  are one part in 2^53 apart, more than the scaling loses.
* C65 provided saturating methods: complete under the stated promise of the implementor; for a left
  operand outside the output range the wrong bound can result (`C65_wide_left_outside_domain`; no
  impl of the crate is affected).
* C55, C56 bracketing and monotonicity: partial where Nearest or `integral(MIN)` is wrong; complete
  with overflow checks.

* C66 sign symmetry: partial (`half_sum` Nearest of two numbers of one sign, see 13 below).  C67
  multiplication and division: partial (Nearest, where C07/C11 fail).  C68 squares and roots: complete.
  P the rounding function is odd and monotone; a rounded product is within one unit of the exact one,
  so the quotient is within one unit of the original and rounds back to it.
* C69 interval evaluation, C70 error accumulation: complete.  The client program (`Term.bounds`,
  `runProgram`) is part of the statement, not of the model.  P induction over the program.
* C71 splitting: complete.  P Euclidean division of the raw numbers.
* C72 text laws: complete on the quantifier (precision ≥ 1).  P from C28, C31, C32 and the uniqueness
  of the canonical literal.  C73 derives, error texts, schema: complete.

* C74 precision argument of `fixnum_const!`: complete on its quantifier.  P the expansion at another
  precision is the same raw number.

* C75, C76 bytes: complete.  M `Bytes.lean`.  P the byte model equals the character model of
  `Strings.lean` on every input (`C75_display_bytes`, `C76_parse_bytes`), by an invariant between the
  array and the characters written, and by ASCII-ness of the text where the code slices; so reading a
  `&str` as characters is a theorem and not an assumption of C28–C33.
* C78 error growth with factors of any size: complete.  The client program is C70's (`Step`).
* C79 the rest of the 256-bit type: complete.  P the word-level shifts are determined for every amount.
* C80 widening: complete on its quantifier.  P both outcomes are determined by the same rational
  (C01-C33), so only the range differs; where the narrow layout panics, nothing is claimed of it.  For
  `Nearest` division the narrow build has overflow checks (without them it may round to the other
  side, `C80_outside_domain`); reading an `f64` is compared within one build.
* C81 change of type: complete on its quantifier.  P from the round trips (C31, C48), the exact
  printer (C28) and the uniqueness of canonical literals; SCALE and binary serde carry the raw number.
  `C81_text` names the types which always print; `C81_text_any`, `C81_text_same_any`,
  `C81_text_to_zero` and `C81_serde_any` take every number for which nothing overflows in printing.
  `isText_unique` shows that the specification of texts is unambiguous.
* C82 idempotence: complete on its quantifier.  P from C17-C21 on integral values.
* C83 laws up to rounding: complete.  P from the error bounds; nested directed division by the Galois
  connection of `⌊ ⌋` and `⌈ ⌉`; for `Nearest` in two steps it fails (`C83_outside_domain`).
* C84 compact SCALE: complete.  M `Compact.lean`; the integer format is that of the external crate,
  written from its documentation (not in /repo), so the theorems are about `/repo`'s use of it.
* C85 bisection: complete.  M the client loop `bisect` in `Props/Clients.lean` over the modelled
  `half_sum`; P halving of the raw distance; the loop with `Nearest` is proved not to end.
* C86 means and interpolation: complete.  M client programs; P monotonicity of rounding.
* C87 repeated multiplication: complete (`Nearest` resting points without `i128` and 38 digits,
  `C87_outside_domain`).  P induction on chains and step counts.
* C88 saturating sums, C89 division among parties, C90 geometric mean and hypotenuse: complete.  M client
  programs in `Props/Ledger.lean`; P from C01–C05, C07, C12, C16, C22, C68.
* C91 serde modules on any content: complete.  M `Serde.lean`; P case analysis over contents, with
  `from_str` and `TryFrom<f64>` as C32–C35 and C40–C43 describe them.  The errors are stated with the
  relation `Named` (`Props/Serde.lean`), a specification of how serde names an unwanted content.
* C92 running error bounds: complete.  M expressions (`Term`) and the relation `Runs` in
  `Props/RunningError.lean`; P induction, with the error of each operation from C07, C10, C11, C16, C22.
* C93 exchange pools, C94 vaults, C95 running means, C96 fees, C97 compound interest: complete.  M client
  programs in `Props/Finance.lean`; P from C01, C02, C07, C10, C12, induction on the sequences; that
  the mode matters is shown by `C93_nearest_outside_domain` and `C94_ceil_outside_domain`.  When C87, C93, C94 and
  C97 report no error is in `Props/FinanceReturns.lean`.
* C98 the calls that do not return: complete.  M `Call` (a call with its arguments) and the lists
  `Call.Panics`, `Call.Corrupts` in `Props/Panics.lean`; P by cases from the theorems of the single
  operations; printing with debug assertions is printing without, undefined behaviour replaced by a
  panic (`guarded_display`).
* C99 the start value of the square root: complete.  S `Spec.F64NearestReal` next to the theorems,
  `Spec.f64Nearest` of `FloatSpec.lean`; P that the integer formulas of `natToF64` and `f64SqrtTrunc`
  are the IEEE results (`SqrtGuessBasic.lean`): both candidates lie on the grid of the binade, and a
  root is never half-way between two `f64`.  The root itself (C22, C77) does not depend on it, see
  `C23_any_guess`.
* C100 programs: complete.  M a language of client programs (`Op`, `Cmd`, `Cmd.run` by fuel) in
  `Props/Imperative.lean`; P structural induction from C39 (profiles), C80 (layouts) and the theorems
  of the single operations; `C100_outside_domain` shows that each condition is needed.
* C101 the operations on rational numbers: complete.  S the functions `Q.*` in `Props/Rational.lean`,
  total, with the exceptional outcomes of the partial claims C07, C09, C11–C13, C15, C17–C19 written
  out; P by joining, per operation, the theorem on the good domain, the exact panic condition and the
  wrapped result; programs by structural induction.
* C102 reasons of rejection: complete.  S the relation `Rejected` and the text between white space
  (`Core`) in `Props/Reasons.lean`; P each condition forces its message, and every text is accepted or
  meets one of the conditions.
* C103 TryFrom<f64> as an explicit function: complete for P ≤ 38 (all precisions that fit a layout).
  S `DecimalCut`, `round49` (`FloatSpec.lean`); P the truncation could only show for an `f64` within one
  part in 2^113 above a rounding boundary.  For each decimal place and binary exponent that is a
  question of hitting an interval with `5^k·m mod 2^j`, m < 2^53; a Euclid-like search (`FloatHits.lean`,
  proved sound) excludes it for the 55 places by kernel evaluation.  `C103_build`: all builds agree.
* C104 the `f64` nearest to a decimal number: partial, since false as stated (`C104_literal_false`);
  `C104_outcome` gives the exact outcome in all cases, `C104_back` the case of raw values up to 4·10^15.
* C105 rounding of the conversion to f64: partial, since false as stated (`C105_nearest_false`).  P for
  at most 15 digits faithful (`C105_faithful`): the fraction is off by at most a quarter of the gap
  between the `f64` at the sum; from 2^52 on, `f64` are integers.  The bound is sharp: with 16 digits or
  more every type has an exact number that is converted inexactly (`C105_faithful_outside_domain`).
* C106 f64 to FixedPoint to f64: partial, since false as stated (`C106_there_and_back_false`); P from
  C104, C105 and C47.
* C107 documents: partial, since false as stated (`C107_document_false`); P from C32, C50 and C104 for
  the numbers of the type, from C32 and C44 for the others (`C107_neighbours`).
* C108 conversion to f64 as a function: complete.  P the rounding of the model is the nearest `f64`
  (C46), which is unique as a bit pattern (`f64Nearest_unique`).
* C77 integer square root: partial.  P all ten types; false for `i128` from
  `13043817825332782212²` on, with the exact outcome there (`C77_isqrt_i128_false`), and proved
  unreachable from `rsqrt` (`C77_radicand`).  `Props/PrimTypes.lean` compares the ranges and the wrap-around of the
  primitive types, and the cast `as u32` of the float conversion, with `BitVec`.
* C109 how often the loops run: complete.  M the loops carry a bound on their iterations; running out
  is `diverge`.  P above the root the distance to it, relative to it, is at least squared and halved by
  a step; the first step from a power of two within a factor `√2` leaves 6.07 percent.  The counts of the loops of
  `TryFrom<f64>` are the exponents they count down and are not restated.
* C110 user types around `FixedPoint`: complete.  M the generic functions with the user's conversions as
  arbitrary total functions.  P they factor through the functions on `FixedPoint`; then C49, C61, C51.
* C111 readers and writers that fail: complete.  M the other side as an arbitrary function of what it is
  handed, with errors of its own; of a map the first key and the value after it.  P case analysis;
  bytes ↔ numbers as in C48.
* C112 records: complete.  M a client (`Record` in `Props/Records.lean`) that calls `encode`/`decode`, their
  compact forms, `Display` and `from_str` field by field; P induction from C48, C84, C30, C32 and C75.
* C113 weighted means: complete.  M the client loop `weightedMean` (`Props/WeightedMean.lean`); P induction,
  with the rounding of each product from C07 and of the quotient from C10.
* C114 monotonicity: complete.  No further definitions; P each result is a monotone function of the exact
  value (C07-C21, C24, C27).  Where `half_sum` changes its treatment of ties: half of an integer rounded up is
  at most half of any greater integer rounded to nearest.  `floor`, `ceil` of `MIN`: from C19.
* C115 agreement: complete.  P both calls are exact, or the same error, for the same number; repeated
  `cadd` by induction, a partial sum being no farther from zero than the product.
* C116 the documented `ERROR_MAX`: partial (false for `Floor`, `Ceil`, for `Nearest` without overflow checks,
  for `TryFrom<f64>`; one unit instead of half a unit holds in every mode and build and is sharp).  P every
  returned number is the exact result rounded in some direction, from C07, C10-C17, C22.
* C117 fewer and more digits: `Props/Finer.lean`. The exact operations give the same number, the directed ones
  the finer result rounded (`roundTo_roundTo`); ranges by `representable_coarser`; expressions by induction,
  reusing the client `Term.bounds` of C69. `Nearest` is outside (double rounding, witness
  `C117_nearest_outside_domain`); bounded by C116 instead.

* C118 powers by squaring: complete.  M the client loop `powerLoop` (`Props/Power.lean`) over the binary digits;
  P induction over the digits, with the exact rounding of products of numbers of one sign in every build (C07).
  For bases up to 1 squaring doubles the error and adds a unit, so that n - 1 units are kept.
* C119 ledger: complete.  M the client `runMoves` (`Props/Balances.lean`); P induction over the moves from C01, C02,
  C54; a covered transfer cannot overflow since two balances are at most the total.
* C120 exact results: complete.  P an exact result leaves no remainder, so that the `Nearest` test, the only part of
  the code that can overflow, is not reached (C07, C11, C12 with remainder 0); for roots by uniqueness of the rounding.
* C121 reciprocals: complete.  P from the bound of C116 in every mode and build, monotonicity of rounding and C120.
* C122 exponential series: complete.  M the client loop `expLoop` (`Props/Exponential.lean`); P induction over the
  terms with C01, C07, C12, C116; Mathlib's `Real.exp_bound` for the remainder.
* C123 sharing out in proportion: complete.  M the client `shareOut` (`Props/ProRata.lean`); P induction over the
  parties with C02, C07, C10: what is left covers the exact shares of the remaining parties.
* C124 repaying a loan: complete.  M the client loop `repay` (`Props/Loan.lean`); P induction over the periods with
  C01, C02, C07, C54; monotonicity of rounding for the interest.
* C125 Newton's iteration: complete.  M the client loop `newtonRoot` (`Props/Newton.lean`); P on raw integers: every
  step stays at or above the integer root and halves the distance to it.
* C126 polynomials: complete.  M the client loop `horner` (`Props/Horner.lean`); P induction over the coefficients with
  C01, C07, C116; the polynomial is specified as a sum of powers.
* C127 binary logarithms: complete.  M the client loop `logLoop` (`Props/Logarithm.lean`); P induction over the rounds
  for `(2^d * y)^(2^n)` with C07, C12, C54; Mathlib's `Real.logb` in the statement.
* C128 variance: complete.  M the clients `variance` and `onePass` (`Props/Variance.lean`); P C116 for every rounding
  and the shift of the mean square; witnesses for one pass.
* C129 moving averages: complete.  M the client loop `movingAvg` (`Props/MovingAverage.lean`); P induction over the
  observations with C86 for each step; the exact average is specified as a weighted sum.
* C130 format flags: complete.  M `Formatter.lean` (flags, writer, `write_str`); P by computation; what `std::fmt`
  documents is the separate `Spec.padded`.
* C131 brackets: complete.  M the client `bracketTax` (`Props/Brackets.lean`); P induction over the brackets with C01,
  C02, C07, C54; a directed rounding commutes with whole units, and so does Nearest
  above zero.  The exact tax is specified by the ends of the brackets.
* C132 balanced sum: complete.  M the client `balancedSum` (`Props/BalancedSum.lean`); P induction over the number of
  summands left with C01, C54; the sum so far stays between MIN and MAX, or moves towards the total.
* C133 remainders and Euclid: complete.  M the clients `wholeQuotient`, `divRem`, `euclid` (`Props/Euclid.lean`); P C10,
  C18 and that a directed rounding to P digits followed by one to 0 digits is one rounding; Euclid by induction over the
  rounds, each with C14, C03, C02.  The greatest common measure is specified by divisibility of rationals.
* C134 time-weighted averages: complete.  M the client loop `trapezoids` (`Props/TimeMean.lean`); P induction over the
  observations with C02, C07, C16, C01; `half_sum` is off by half a unit at most; the area is specified on rationals.
* C135 release over time: complete.  M the clients `vested` and `claims` (`Props/Vesting.lean`); P C07, C10, C02 and the
  monotonicity of rounding; the sum of the claims telescopes.
* C136 buying and selling: complete.  M the clients `trade` and `trades` (`Props/Trading.lean`); P C07, C10, C01, C02 for
  one order, induction over the orders.
* C137 the median: complete.  M the clients `sortAsc` and `median` (`Props/Median.lean`), S `Spec.IsKth` by counting;
  P C54, C16, C114 and counting in the sorted list.
* C138 rate limits: complete.  M the clients `refill` and `bucket` (`Props/RateLimit.lean`); P C01, C02, C07, C54 for
  one request, induction over the requests; that the mode matters is shown by `C138_ceil_outside_domain`.
* C139 rewards per stake: complete.  M the clients `farm` and `farms` (`Props/Rewards.lean`), S `Spec.owed`; P C01, C02,
  C07, C10 for one step, induction over the steps.
* C140 tax: complete on its domain.  M the clients `addTax` and `takeOutTax` (`Props/Tax.lean`); P C01, C02, C07, C11 and the
  bound on one rounding to nearest.  Outside the domain (negative rates, factors beyond half of the range, the opposite
  round trip) witnesses show that it fails.
* C141 payments in coins: complete.  M the clients `payOut` and `payOuts` (`Props/Coins.lean`); P C01, C02, C20 for one
  payment, induction over the amounts.

## 5. Disagreements between code and (reasonable) claims
1. `rdiv(.., Nearest)` (fixed/fixed, fixed/int, int/int): `loss_abs + loss_abs` overflows the layout
   for remainders above `MAX/2`: with overflow checks a panic, without a truncated quotient
   (`FixedPoint<i64, U9>`: 5.0 / 9000000000.0; `100i8.rdiv(127, Nearest)`).
2. Integer and fixed/integer `rdiv`: `MIN / -1` panics in every profile instead of `Err(Overflow)`.
3. `rdiv(.., Nearest)` with divisor `MIN`: `rhs.abs()` overflows: panic, or always rounded away.
4. `rmul(.., Nearest)` on `FixedPoint<i128, U38>`: `loss + loss` overflows: panic; without overflow
   checks negative products are truncated.
5. `integral(MIN)`: `abs()` overflows: panic, or truncated; likewise `frac + frac` on i128/U38.
6. `floor/ceil/round` panic when the integer value is not representable (e.g. `MAX.ceil()`).
7. `from_decimal` with `10^(exponent + P) > MAX`: panic even for mantissa 0; a wrong value without
   overflow checks.
8. `Display`: with precision 0 it can write outside its 21/41-byte buffer (undefined behaviour in
   release), and `MIN` prints as `--9223372036854775808.0`; on i128/U38 `fractional + COEF` overflows
   (panic; wrong text; or 42 bytes into 41 for negative numbers).
9. With precision 0 the printed form ("42.0") is rejected by both parsers; `from_str` also rejects
   "42." and ".5", of which `fixnum_const!` accepts "42.".
10. A precision that does not fit the layout compiles with a truncated coefficient (C53), which is 0
    from BITS digits on (`FixedPoint<i16, U16>`: every product and every print panics).
11. `TryFrom<f64>` is not round-to-nearest (0.45 → 1 at precision 0; the error can reach 0.5556
    units) and rejects `MIN`.
12. `fixnum_const!` truncates silently (`as _`): `fixnum_const!(1000, 2)` on i16 is -310.72.
13. `half_sum(.., Nearest)` breaks ties upwards when both operands are negative.
14. Without overflow checks, Nearest rounding is not monotone (C56), nor is `integral`.
15. `fixnum_const!` without overflow checks: 19 (with `i128`: 39) fractional digits are dropped
    silently and long integers wrap.  With checks `MIN` and many leading zeros are compile errors.
16. `serde::str::deserialize` and `str_option` accept borrowed strings only.
17. Human-readable serialisation of i128/U38 panics or writes a wrong number (from 8).
18. The f64 round trip fails just below 2^52 raw units (`FixedPoint<i64, U9>` raw 4471717573816163).
19. `impl_op!` rdiv: an integer dividend that the result type cannot represent is an `Overflow` even
    if the quotient could be represented (C13, C51).
20. From 1: on `FixedPoint<i64, U9>` `10^-9 · 9000000000.000000001` rounds to `9`, and dividing back
    with Nearest panics, or gives 0 without overflow checks (C67).
21. `fixnum_const!(1.5, 2)` compiles as a `FixedPoint<i64, U9>` and is 0.00000015 (C74).
22. The internal square root of `i128` squares a trial root that may be as large as `2^64`: from
    `13043817825332782212²` (just below `i128::MAX`) on it panics, or is one too large without overflow
    checks (C77).  No public function reaches these arguments: `rsqrt` on `i64` stays below `2^123`.
23. `TryFrom<f64>` of a short literal can be off by a unit of the 16th digit: 4096.029 becomes
    4096.029000000001 at 12 or more digits, 4.46e-16 becomes 4.460000000000001e-16 (C104).
24. `f64::from` is not correctly rounded: `FixedPoint<i64, U2>` 1.14 becomes 1.1400000000000001; with
    18 digits (and similarly with any number of digits above 15) 0.576904296875, which is an `f64`, becomes 0.5769042968750001 (C105).
25. As a consequence of 11 and 23 a number in a JSON document can be read differently as a string and as
    a float: 0.445 with one digit is 0.4 or 0.5 (C107).
26. The documented `ERROR_MAX = 0.5 / 10^PRECISION` holds for `Nearest` only: `Floor` and `Ceil` are off by
    up to (not including) a whole unit, e.g. `EPSILON.rmul(EPSILON, Ceil)` (C116).
27. Two ways to write the same can differ: `MIN.rdiv(-1)` panics where `MIN.rdiv(-1.0)` is `Err(Overflow)`;
    the mean of -0.001 and -0.002 to nearest is -0.001 with `half_sum` and -0.002 with `cadd`, `rdiv` (C115).
28. `format!("{:>8}", x)` and `{:.2}` neither fill up nor cut: `fmt` uses `write_str` where `std::fmt` expects
    `pad` (C130).

## 6. Evidence for the transcription
`Conformance.lean` and `ConformanceUnit.lean` replay the crate's own tests on the model by kernel
evaluation (`decide +kernel`): every example-based test of `tests/it` (operations, conversions,
strings, `f64`, serde, quick-xml, const constructors), the unit tests of `src/i256`, `src/power_table.rs`
and `src/const_fn.rs`, the documentation examples and `examples/usage.rs`, in a debug and a release
build.  All agree with the model.  These are checks of the transcription on concrete inputs, not proofs
of properties; no property theorem depends on them.  The crate's property-based tests are instances of
C26, C30 and C64.
