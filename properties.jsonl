{"id": "C01", "title": "cadd is exact or Overflow", "statement": "a.cadd(b) returns Ok(c) with value(c) = value(a) + value(b) exactly whenever that sum is representable, and Err(Overflow) otherwise; it never panics and never wraps.", "quantifier": "every layout (i16, i32, i64, i128), every precision P with 10^P <= MAX of the layout, every pair of raw values, debug and release builds", "why_tests_cant": "2^256 operand pairs per layout; the interesting ones are on the overflow boundary.", "anchors": ["src/lib.rs: impl CheckedAdd for FixedPoint (374-387)", "src/ops/mod.rs: impl_for_ints CheckedAdd (400-413)"]}
{"id": "C02", "title": "csub is exact or Overflow", "statement": "a.csub(b) returns Ok(c) with value(c) = value(a) - value(b) exactly whenever that difference is representable, and Err(Overflow) otherwise; it never panics.", "quantifier": "every layout (i16, i32, i64, i128), every precision P with 10^P <= MAX of the layout, every pair of raw values, debug and release builds", "why_tests_cant": "Boundary behaviour (e.g. 0 - MIN) must hold for all pairs.", "anchors": ["src/lib.rs: impl CheckedSub for FixedPoint (390-403)", "src/ops/mod.rs: impl_for_ints CheckedSub (415-428)"]}
{"id": "C03", "title": "cmul by an integer is exact or Overflow, in both operand orders", "statement": "a.cmul(n) and n.cmul(a) return the same result: Ok(c) with value(c) = value(a) * n exactly when representable, Err(Overflow) otherwise.", "quantifier": "every layout (i16, i32, i64, i128), every precision P with 10^P <= MAX of the layout, every pair of raw values (one fixed-point, one layout integer)", "why_tests_cant": "Overflow boundary of a product over all operands.", "anchors": ["src/lib.rs: impl CheckedMul (406-435)", "src/ops/mod.rs: impl_for_ints CheckedMul (430-443)"]}
{"id": "C04", "title": "cneg and abs are exact or Overflow", "statement": "x.cneg() is Ok(-x) except for MIN where it is Err(Overflow); x.abs() is Ok(|x|) except for MIN where it is Err(Overflow).", "quantifier": "every layout, precision and raw value", "why_tests_cant": "MIN is one value in 2^128; the claim is that it is the only exception.", "anchors": ["src/lib.rs: FixedPoint::cneg (458), FixedPoint::abs (574)"]}
{"id": "C05", "title": "saturating_add / saturating_sub clamp the exact result", "statement": "x.saturating_add(y) (resp. saturating_sub) equals the exact sum (difference) clamped to [MIN, MAX].", "quantifier": "every layout (i16, i32, i64, i128), every precision P with 10^P <= MAX of the layout, every pair of raw values", "why_tests_cant": "Must hold at every boundary combination of signs.", "anchors": ["src/lib.rs: saturating_add (384), saturating_sub (400)", "src/ops/mod.rs: CheckedAdd::saturating_add (82-96), CheckedSub::saturating_sub (154-168)"]}
{"id": "C06", "title": "saturating_mul clamps the exact product, in both operand orders", "statement": "x.saturating_mul(n) and n.saturating_mul(x) equal the exact product value(x)*n clamped to [MIN, MAX].", "quantifier": "every layout, precision, raw value and layout integer", "why_tests_cant": "All sign and overflow combinations.", "anchors": ["src/lib.rs: saturating_mul (416, 432)", "src/ops/mod.rs: CheckedMul::saturating_mul default (229-244)"]}
{"id": "C07", "title": "rmul rounds the exact product in the requested direction, or reports Overflow", "statement": "a.rmul(b, mode) is Ok(r) where r is the exact product value(a)*value(b) rounded to P digits by mode (Floor: greatest value <=; Ceil: least value >=; Nearest: closest, halves away from zero) when that rounded value is representable, and Err(Overflow) exactly when it is not. It never panics and does not depend on the build profile.", "quantifier": "every layout (i16, i32, i64, i128), every precision P with 10^P <= MAX of the layout, every pair of raw values, every RoundMode, every build profile", "why_tests_cant": "The rounding decision depends on the remainder of a double-width product; tests sample a few dozen of 2^256 pairs. (The claim turns out false for FixedPoint<i128,U38> with Nearest.)", "anchors": ["src/lib.rs: impl RoundingMul for FixedPoint (270-304)"]}
{"id": "C08", "title": "rmul is commutative and invariant under negating both operands", "statement": "a.rmul(b, m) = b.rmul(a, m); and (-a).rmul(-b, m) = a.rmul(b, m) whenever both negations exist. Consequently Floor(a*b) = -Ceil((-a)*b).", "quantifier": "every layout (i16, i32, i64, i128), every precision P with 10^P <= MAX of the layout, every pair of raw values, every RoundMode", "why_tests_cant": "Symmetry over all pairs; the existing tests assert it on samples.", "anchors": ["src/lib.rs: RoundingMul::rmul (270-304)"]}
{"id": "C09", "title": "saturating_rmul clamps the exact rounded product", "statement": "a.saturating_rmul(b, mode) equals the exact product rounded by mode and then clamped to [MIN, MAX].", "quantifier": "every layout (i16, i32, i64, i128), every precision P with 10^P <= MAX of the layout, every pair of raw values, every RoundMode", "why_tests_cant": "Requires that the sign test in the default method agrees with the sign of the overflowing product for every pair (including zero operands and rounding-induced overflow).", "anchors": ["src/ops/mod.rs: RoundingMul::saturating_rmul (328-343)", "src/lib.rs: RoundingMul::rmul (270-304)"]}
{"id": "C10", "title": "rdiv (fixed / fixed) with Floor and Ceil rounds the exact quotient, or reports the error", "statement": "a.rdiv(b, Floor|Ceil): Err(DivisionByZero) iff b = 0; otherwise Ok of the exact quotient value(a)/value(b) rounded by mode when representable and Err(Overflow) exactly when not. Never panics.", "quantifier": "every layout (i16, i32, i64, i128), every precision P with 10^P <= MAX of the layout, every pair of raw values, modes Floor and Ceil, every build profile", "why_tests_cant": "Sign/remainder/overflow combinations over all pairs.", "anchors": ["src/lib.rs: impl RoundingDiv for FixedPoint (307-348)"]}
{"id": "C11", "title": "rdiv (fixed / fixed) with Nearest rounds to the nearest value", "statement": "a.rdiv(b, Nearest) with b != 0 is Ok of the exact quotient rounded to nearest (halves away from zero), or Err(Overflow) when that is not representable; it never panics and is the same in debug and release.", "quantifier": "every layout (i16, i32, i64, i128), every precision P with 10^P <= MAX of the layout, every pair of raw values, every build profile", "why_tests_cant": "Holds on all the crate's tests, yet false for large divisors: the doubled remainder overflows the layout. Only a universally quantified statement exposes the exact boundary.", "anchors": ["src/lib.rs: RoundingDiv::rdiv, loss_abs + loss_abs >= rhs.inner.abs() (334-339)"]}
{"id": "C12", "title": "rdiv by a layout integer", "statement": "x.rdiv(n, mode) with an integer n: Err(DivisionByZero) iff n = 0; otherwise Ok of value(x)/n rounded by mode, or Err(Overflow) if not representable; never panics.", "quantifier": "every layout (i16, i32, i64, i128), every precision P with 10^P <= MAX of the layout, every pair of raw values, every RoundMode, every build profile", "why_tests_cant": "Exceptional point MIN / -1 and large-divisor Nearest are invisible to sampled tests.", "anchors": ["src/lib.rs: impl RoundingDiv<layout> for FixedPoint (351-359)", "src/ops/mod.rs: impl_for_ints RoundingDiv (445-475)"]}
{"id": "C13", "title": "integer.rdiv(fixed)", "statement": "n.rdiv(x, mode) with an integer numerator: Ok of n/value(x) rounded by mode when n is itself representable as a FixedPoint; Err(Overflow) when n is not representable or the quotient is not; Err(DivisionByZero) when n is representable and x = 0.", "quantifier": "every layout, precision, layout integer, raw value, RoundMode", "why_tests_cant": "Order of the error checks and all rounding cases.", "anchors": ["src/lib.rs: impl RoundingDiv<FixedPoint> for layout (362-371)"]}
{"id": "C14", "title": "integer rdiv on primitives", "statement": "For i8, i16, i32, i64, i128: a.rdiv(b, mode) is Err(DivisionByZero) iff b = 0; otherwise the quotient rounded by mode, Err(Overflow) when not representable; never panics.", "quantifier": "every primitive width, every pair, every mode, every build profile", "why_tests_cant": "2^256 pairs; exceptions are at MIN/-1 and |b| > MAX/2 with Nearest.", "anchors": ["src/ops/mod.rs: impl_for_ints RoundingDiv (445-475)"]}
{"id": "C15", "title": "recip is 1/x rounded", "statement": "x.recip(mode) equals ONE.rdiv(x, mode): Err(DivisionByZero) iff x = 0, otherwise the rounded exact reciprocal, or Err(Overflow).", "quantifier": "every layout, precision, raw value, mode", "why_tests_cant": "All divisors.", "anchors": ["src/lib.rs: FixedPoint::recip (450)"]}
{"id": "C16", "title": "half_sum never fails and rounds (a+b)/2", "statement": "half_sum(a, b, mode) never panics, is symmetric in a and b, and returns (a+b)/2 rounded: Floor and Ceil exactly, Nearest within half an EPSILON; no intermediate overflow even for MIN/MAX operands.", "quantifier": "every layout (i16, i32, i64, i128), every precision P with 10^P <= MAX of the layout, every pair of raw values, every mode, every build profile", "why_tests_cant": "Absence of intermediate overflow for all pairs.", "anchors": ["src/lib.rs: FixedPoint::half_sum (467-476)"]}
{"id": "C17", "title": "half_sum Nearest breaks ties away from zero", "statement": "half_sum(a, b, Nearest) rounds exact halves away from zero, like every other Nearest operation of the crate.", "quantifier": "every layout (i16, i32, i64, i128), every precision P with 10^P <= MAX of the layout, every pair of raw values", "why_tests_cant": "Depends on the sign combination of the operands; false when both operands are negative.", "anchors": ["src/lib.rs: FixedPoint::half_sum (467-476)"]}
{"id": "C18", "title": "integral rounds to an integer in the requested direction", "statement": "x.integral(mode) is value(x) rounded to an integer by mode; it never panics.", "quantifier": "every layout, precision, raw value, mode, build profile", "why_tests_cant": "Claim must hold for every raw value including MIN, where it turns out to fail.", "anchors": ["src/lib.rs: FixedPoint::integral (501-516)"]}
{"id": "C19", "title": "floor / ceil / round return the right integer value or panic exactly when it is not representable", "statement": "x.floor() (ceil, round) returns the fixed-point integer value that is the floor (ceiling, nearest with halves away from zero) of x when that integer value is representable.", "quantifier": "every layout, precision, raw value other than MIN", "why_tests_cant": "Exact characterisation of the panicking inputs.", "anchors": ["src/lib.rs: FixedPoint::floor/ceil/round (520-534)"]}
{"id": "C20", "title": "round_towards_zero_by truncates to a multiple", "statement": "x.round_towards_zero_by(p) for p != 0 is the multiple of p closest to x among those not farther from zero than x (x - x rem p); for p = 0 it is x; it never panics.", "quantifier": "every layout (i16, i32, i64, i128), every precision P with 10^P <= MAX of the layout, every pair of raw values", "why_tests_cant": "Includes MIN / -EPSILON; all pairs.", "anchors": ["src/lib.rs: FixedPoint::round_towards_zero_by (538-543)"]}
{"id": "C21", "title": "next_power_of_ten returns the next power of ten or Overflow", "statement": "For x > 0 next_power_of_ten returns the smallest value 10^(k-P), k >= 0, that is >= x; for x < 0 the largest -10^(k-P) <= x; for 0 it returns EPSILON; Err(Overflow) exactly when that power is not representable; never panics.", "quantifier": "every layout, precision and raw value", "why_tests_cant": "Relies on four lookup tables with 17/33/65/129 entries generated with floating-point log10; must be right for every raw value.", "anchors": ["src/lib.rs: FixedPoint::next_power_of_ten (549-570)", "src/power_table.rs: i16, i32, i64, i128 tables"]}
{"id": "C22", "title": "rsqrt is the correctly rounded square root", "statement": "x.rsqrt(mode): Err(DomainViolation) iff x < 0; otherwise Ok(s) where s is sqrt(value(x)) rounded to P digits: Floor s <= sqrt(x) < s+eps, Ceil s-eps < sqrt(x) <= s, Nearest |s - sqrt(x)| <= eps/2. Never overflows, never panics, terminates.", "quantifier": "every layout, precision, raw value, mode, build profile, with or without std", "why_tests_cant": "Correctness of Newton iteration from a floating-point initial guess and of the bitwise recursion for every argument.", "anchors": ["src/lib.rs: FixedPoint::rsqrt (612-644)", "src/ops/sqrt.rs", "src/i256/u256.rs: impl Sqrt (799-825)"]}
{"id": "C23", "title": "rsqrt does not depend on the std feature", "statement": "The result of rsqrt is the same with the floating-point initial guess (std) and with the bit-length guess (no_std), and indeed for every initial guess g >= 1 whose first Newton step does not overflow the working type.", "quantifier": "every argument and every guess in range", "why_tests_cant": "Two different code paths compiled under different features are never in the same test binary.", "anchors": ["src/ops/sqrt.rs: guess (34-50), fixpoint (53-64)"]}
{"id": "C24", "title": "from_decimal is exact or an error", "statement": "from_decimal(m, e) is Ok(x) with value(x) = m * 10^e exactly, or Err; Err(unsupported exponent) iff e < -P or e > 10, otherwise Err(too big mantissa) iff m*10^e is not representable; never panics.", "quantifier": "every layout, precision, mantissa and i32 exponent, build profile", "why_tests_cant": "All mantissa/exponent combinations; false when 10^(e+P) overflows the layout.", "anchors": ["src/lib.rs: FixedPoint::from_decimal (668-680)"]}
{"id": "C25", "title": "to_decimal is exact and normalised", "statement": "x.to_decimal(max_exponent) for max_exponent >= -P returns (m, e) with -P <= e <= max_exponent, m * 10^e = value(x) exactly, and if x != 0 and e < max_exponent then 10 does not divide m; it panics iff max_exponent < -P; the loop terminates.", "quantifier": "every layout, precision, raw value and i32 max_exponent", "why_tests_cant": "Loop over trailing zeros; all values and bounds.", "anchors": ["src/lib.rs: FixedPoint::to_decimal (694-711)"]}
{"id": "C26", "title": "from_decimal inverts to_decimal", "statement": "For max_exponent in [-P, 10], from_decimal(x.to_decimal(max_exponent)) = Ok(x).", "quantifier": "every layout, precision, raw value, max_exponent in [-P, 10]", "why_tests_cant": "Round trip over the whole value space.", "anchors": ["src/lib.rs: from_decimal, to_decimal (668-711)"]}
{"id": "C27", "title": "TryFrom<integer> is exact or an error", "statement": "FixedPoint::try_from(n) for n of any of i8..i128, u8..u128, isize, usize is Ok(x) with value(x) = n when n is representable, Err(too big number) otherwise; never panics.", "quantifier": "every layout, precision and source integer of any of the 12 types", "why_tests_cant": "Two-stage conversion (narrowing then scaling) over all integers.", "anchors": ["src/lib.rs: TryFrom impls (723-736)"]}
{"id": "C28", "title": "Display prints the exact decimal value in canonical form", "statement": "to_string(x) is: '-' iff x < 0; the integral digits without superfluous leading zeros; '.'; the fractional digits without trailing zeros, or a single '0'. The decimal number it denotes equals value(x) exactly.", "quantifier": "every layout, precision >= 1 (2*10^P <= MAX+1) and raw value", "why_tests_cant": "Exactness and canonicity for all values.", "anchors": ["src/string.rs: Stringify (102-125)", "src/lib.rs: Display, Debug (648-663)"]}
{"id": "C29", "title": "Display never writes outside its buffer", "statement": "Formatting any FixedPoint never writes past the fixed-size unsafe buffer (21 bytes without the i128 feature, 41 with it).", "quantifier": "every layout, precision and raw value, feature set", "why_tests_cant": "The writes are unchecked in release builds; only a bound for all values excludes undefined behaviour. (False for precision 0.)", "anchors": ["src/string.rs: MAX_LEN, StrBuf::push, push_str (132-169)"]}
{"id": "C30", "title": "parsing the printed form gives the value back", "statement": "from_str(to_string(x)) = Ok(x) and from_str_exact(to_string(x)) = Ok(x).", "quantifier": "every layout, precision P >= 1 (2*10^P <= MAX+1), raw value", "why_tests_cant": "Round trip over the whole value space; proptest samples only i128/U18.", "anchors": ["src/string.rs: parse_str, stringify"]}
{"id": "C31", "title": "from_str_exact accepts exactly the representable decimals", "statement": "from_str_exact(s) is Ok(x) iff s, trimmed, is [+-]digits, or [+-]digits '.' digits with 1..P fractional digits, and the denoted decimal is representable; then value(x) is exactly that decimal. In every other case it is Err; it never panics.", "quantifier": "every string, layout, precision P >= 1, build profile", "why_tests_cant": "Infinite input space; accept/reject boundary.", "anchors": ["src/string.rs: from_str_exact, parse_str (29-99)"]}
{"id": "C32", "title": "from_str rounds to the nearest representable value", "statement": "from_str(s) for [+-]digits['.' digits+] is the denoted decimal rounded to P digits, halves away from zero, if that is representable, and Err otherwise; every other string is Err; it never panics.", "quantifier": "every string (any length of fraction), layout, precision P >= 1, build profile", "why_tests_cant": "Unbounded fraction length; rounding looks at a single digit.", "anchors": ["src/string.rs: from_str, parse_str (12-99)"]}
{"id": "C33", "title": "from_str extends from_str_exact", "statement": "Whenever from_str_exact(s) = Ok(x), from_str(s) = Ok(x).", "quantifier": "every string, layout and precision", "why_tests_cant": "Infinite input space.", "anchors": ["src/string.rs: parse_str"]}
{"id": "C34", "title": "fixnum! / fixnum_const! literals agree with from_str_exact", "statement": "For a literal text accepted by from_str_exact at precision P the macro yields the same value; a literal with more than P fractional digits never yields a value (compilation does not succeed).", "quantifier": "every literal text, every precision, both Int widths", "why_tests_cant": "Compile-time evaluation cannot be property-tested.", "anchors": ["src/const_fn.rs: parse_fixed, parse_int, pow10", "src/macros.rs: fixnum_const (179-186)"]}
{"id": "C35", "title": "fixnum_const! never silently changes the value", "statement": "If fixnum_const!(lit, P) compiles for FixedPoint<layout, P>, the resulting value equals the literal.", "quantifier": "every literal, layout and precision", "why_tests_cant": "Silent truncation by `as _` needs out-of-range literals at each layout.", "anchors": ["src/macros.rs: fixnum_const, VALUE_INNER as _ (184)", "src/const_fn.rs: TODO check overflow explicitly"]}
{"id": "C36", "title": "wide (256-bit) multiplication, addition, subtraction, negation and comparison behind FixedPoint<i128, P> are exact", "statement": "Products of two i128 raw values, and sums, differences, negations and comparisons of the intermediate 256-bit values, are exact integers for all operands arising in rmul, rdiv and rsqrt; no carry is lost and no debug assertion fires.", "quantifier": "every pair of 256-bit operands other than I256::MIN whose result fits (the outcome for all others is determined too)", "why_tests_cant": "Limb carries: counterexamples have probability ~2^-64 per random test.", "anchors": ["src/i256/mod.rs: Mul, Add, Sub, Neg, Ord", "src/i256/u256.rs: uint_overflowing_binop, uint_full_mul_reg"]}
{"id": "C37", "title": "wide (256-bit) division is exact for every dividend and divisor", "statement": "The 256-bit quotient used by rmul and rdiv on i128 equals the mathematical truncated quotient for every dividend and non-zero divisor; division never panics and terminates.", "quantifier": "every unsigned 256-bit dividend and non-zero divisor; every signed one other than I256::MIN, which the debug assertion of negation rejects (outcome determined too)", "why_tests_cant": "Knuth algorithm D: the add-back branch is taken with probability ~2^-63.", "anchors": ["src/i256/mod.rs: Div (70-88)", "src/i256/u256.rs: div_mod, div_mod_knuth, div_mod_small, div_mod_word"]}
{"id": "C38", "title": "conversions between i128/u128 and the wide type are lossless and reject exactly the out-of-range values", "statement": "Widening then narrowing gives the same number; narrowing a wide value succeeds iff it is in range, and then preserves the value.", "quantifier": "every i128, every u128 and every 256-bit value", "why_tests_cant": "Boundary of 2^128 and 2^127 over all values.", "anchors": ["src/i256/mod.rs: from_i128, TryFrom<I256> (34-37,141-173)", "src/i256/u256.rs: TryFrom<U256> for u128 (633-652)"]}
{"id": "C39", "title": "results do not depend on the build profile", "statement": "A build with overflow checks and debug assertions either panics or gives exactly the result of a build without them, for every operation; two builds that do not panic agree; and within the domain proved for an operation every build gives the same result and none panics.", "quantifier": "every operation, operand and profile (overflow checks on/off, debug assertions on/off)", "why_tests_cant": "A test binary is built with one profile; wrapped release results are silent.", "anchors": ["src/lib.rs: all operations", "src/i256/u256.rs: debug_assert!"]}
{"id": "C40", "title": "TryFrom<f64> rejects non-finite values and maps zeros to zero", "statement": "try_from(NaN) = try_from(+-inf) = Err(not finite) for every NaN payload; try_from(+-0.0) = Ok(ZERO).", "quantifier": "every 64-bit pattern", "why_tests_cant": "2^53 NaN patterns.", "anchors": ["src/float.rs: try_from (18-35)"]}
{"id": "C41", "title": "TryFrom<f64> is odd", "statement": "try_from(-f) = -try_from(f) (and one is Err exactly when the other is).", "quantifier": "every finite f64, layout, precision", "why_tests_cant": "2^64 inputs.", "anchors": ["src/float.rs: try_from (171-181)"]}
{"id": "C42", "title": "TryFrom<f64> never panics", "statement": "For every f64, layout and precision the conversion returns Ok or Err: table indexes stay in bounds, no arithmetic overflow, the loops terminate.", "quantifier": "every 64-bit pattern, layout, precision, build profile", "why_tests_cant": "Table index and overflow bounds over 2^64 inputs.", "anchors": ["src/float.rs", "src/power_table.rs"]}
{"id": "C43", "title": "TryFrom<f64> is exact on integers and short dyadic fractions", "statement": "If f is an integer, then try_from(f) is Ok of exactly f when representable and Err otherwise; likewise for dyadic fractions n/2^k with k <= P and |n|*5^k < 2^52. (Turns out false for MIN, which is rejected; no f64 is ever converted to MIN.)", "quantifier": "every integer-valued f64 (of any magnitude), every short dyadic fraction, layout, precision", "why_tests_cant": "2^54 inputs.", "anchors": ["src/float.rs"]}
{"id": "C44", "title": "TryFrom<f64> error bound", "statement": "If try_from(f) = Ok(x) then |value(x) - f| is at most (5/9)*EPSILON + 1.234e-15*|f|, and at most 0.6112*EPSILON when |f| is below 2^52 EPSILON; f well inside the range is accepted and f well outside is rejected.", "quantifier": "every finite f64, layout, precision", "why_tests_cant": "Needs every exponent/mantissa combination.", "anchors": ["src/float.rs", "src/power_table.rs: POWERS_OF_10 thresholds"]}
{"id": "C45", "title": "TryFrom<f64> rounds to the nearest representable value", "statement": "If try_from(f) = Ok(x) then no representable value is closer to f than x.", "quantifier": "every finite f64, layout, precision", "why_tests_cant": "False: 0.45 becomes 1 at precision 0 because remainders are compared with 44..4 instead of one half.", "anchors": ["src/power_table.rs: rdiv_by_exponent_10 (739-751)"]}
{"id": "C46", "title": "conversion to f64 is odd, monotone in sign and accurate", "statement": "f64::from(x) has the sign of x, f64::from(-x) = -f64::from(x), is exact when x is an integer with |x| <= 2^53, and |f64::from(x) - value(x)| <= 3.001 * 2^-53 * |value(x)|, with 2.001 instead of 3.001 for the layouts up to 64 bits.", "quantifier": "every layout, precision, raw value", "why_tests_cant": "Two roundings over the whole value space.", "anchors": ["src/lib.rs: From<FixedPoint> for f64 (714-721)"]}
{"id": "C47", "title": "f64 round trip", "statement": "try_from(f64::from(x)) = Ok(x) for all x with raw value of at most 2.2e15 in magnitude, and below 4e15 for precisions up to 22. (Turns out false for MIN, which is rejected with every precision of the layouts up to 64 bits.)", "quantifier": "every layout, precision and raw value in range", "why_tests_cant": "2^50 values per type.", "anchors": ["src/lib.rs: From<FixedPoint> for f64", "src/float.rs"]}
{"id": "C48", "title": "SCALE encoding round-trips", "statement": "decode(encode(x)) = Ok(x), encode writes exactly BITS/8 bytes (little-endian two's complement), decode consumes exactly that many bytes and fails on shorter inputs, and the compact representation is lossless: decode_from(encode_as(x)) = Ok(x).", "quantifier": "every layout, precision, raw value, trailing input", "why_tests_cant": "Whole value space and arbitrary trailing bytes.", "anchors": ["src/parity.rs: impl_codec"]}
{"id": "C49", "title": "serde: serialisation round-trips in human-readable and binary formats", "statement": "Deserialising what was serialised gives the same value: as string for human-readable formats, as raw integer for binary ones; likewise for the repr, str, repr_option and str_option modules.", "quantifier": "every layout, precision P >= 1, raw value, Option", "why_tests_cant": "Whole value space.", "anchors": ["src/serde.rs"]}
{"id": "C50", "title": "serde: human-readable deserialisation agrees with the conversions", "statement": "Deserialising a string is from_str, an integer (i64, u64, i128, u128) is try_from of that integer, a float is TryFrom<f64>; errors are errors: a text that does not parse is an invalid value showing the text, an integer that is not representable an invalid value, any other content (including a map without a text under $value) an invalid type, named as serde names that kind of content.", "quantifier": "every token of the data model", "why_tests_cant": "All tokens.", "anchors": ["src/serde.rs: FixedPointVisitor (63-117)"]}
{"id": "C51", "title": "wrapper operations defined with impl_op! agree with the underlying operation", "statement": "For wrappers over FixedPoint or integers, a.cadd(b), csub, cmul, rmul, rdiv and their saturating forms equal the operation on the promoted inner values; in particular Size(i32) [rdiv] Size(i32) = Ratio is the quotient of the integers rounded to P digits. An invocation impl_op!(S [op] T = I) compiles exactly if: for cadd and csub S, T and I are the same FixedPoint type; for cmul one of S and T is the FixedPoint type I and the other an integer no wider than its layout; for rmul all three are the same; for rdiv each of S and T is I or such an integer; or (not rmul) S, T and I are integers, I the widest.", "quantifier": "every operand and mode", "why_tests_cant": "Macro-generated code for arbitrary user types.", "anchors": ["src/macros.rs: impl_op (53-150), Operand (5-49)"]}
{"id": "C52", "title": "constants", "statement": "value(ZERO) = 0, value(ONE) = 1, value(EPSILON) = 10^-P is the least positive value, MIN and MAX are the least and greatest values: every value lies between them; COEF is 10^P.", "quantifier": "every layout, precision with 10^P <= MAX", "why_tests_cant": "Evaluated at compile time per type; all precisions.", "anchors": ["src/lib.rs: COEF, EPSILON, ZERO, ONE, MIN, MAX (242-267)", "src/const_fn.rs: pow10 (16-52)"]}
{"id": "C53", "title": "precision too large for the layout is not rejected", "statement": "Every FixedPoint<layout, P> that compiles has ONE equal to the number 1 (i.e. COEF = 10^P).", "quantifier": "every layout and precision", "why_tests_cant": "Needs an unusual instantiation; false: FixedPoint<i16, U5> compiles with a wrapped coefficient.", "anchors": ["src/lib.rs: const COEF = pow10(PRECISION) as _ (248)"]}
{"id": "C54", "title": "ordering and equality are those of the denoted numbers", "statement": "x < y, x = y, x > y (and max/min, hash equality) hold iff value(x) < value(y), =, >; signum(x) is the sign of value(x).", "quantifier": "every layout, precision, pair", "why_tests_cant": "All pairs.", "anchors": ["src/lib.rs: derive(PartialEq, Eq, PartialOrd, Ord) (197), signum (444)"]}
{"id": "C55", "title": "Floor, Nearest and Ceil results bracket", "statement": "For rmul, rdiv, integral, rsqrt: Floor <= Nearest <= Ceil, Ceil - Floor <= one EPSILON (one unit), and Floor = Ceil iff the exact result is representable.", "quantifier": "every operand for which the operations succeed", "why_tests_cant": "Relation between three runs over all operands.", "anchors": ["src/lib.rs: rmul, rdiv, integral, rsqrt"]}
{"id": "C56", "title": "rounding operations are monotone", "statement": "If a <= b then a.rmul(c, m) <= b.rmul(c, m) for c >= 0, a.rdiv(c, m) <= b.rdiv(c, m) for c > 0, a.rsqrt(m) <= b.rsqrt(m), a.integral(m) <= b.integral(m), whenever both succeed.", "quantifier": "every triple of operands and mode", "why_tests_cant": "Relation between two runs over all operands.", "anchors": ["src/lib.rs: rmul, rdiv, rsqrt, integral"]}
{"id": "C57", "title": "checked addition laws", "statement": "cadd is commutative; (a.cadd(b))?.csub(b) = a; when all intermediate results exist, sums of a list do not depend on grouping or order and equal the exact sum.", "quantifier": "every list of values, every order and grouping", "why_tests_cant": "Unbounded histories.", "anchors": ["src/lib.rs: cadd, csub"]}
{"id": "C58", "title": "any successful sequence of exact operations computes the exact result", "statement": "Folding an arbitrary sequence of cadd/csub/cmul/cneg operations, if it succeeds, gives exactly the rational value of the same expression; it fails iff some intermediate value is out of range.", "quantifier": "every finite sequence of operations from every start value", "why_tests_cant": "Unbounded histories.", "anchors": ["src/lib.rs: cadd, csub, cmul, cneg"]}
{"id": "C59", "title": "identities of rounding multiplication and division", "statement": "x.rmul(ONE, m) = Ok(x); x.rdiv(ONE, m) = Ok(x) for Floor/Ceil; x.rdiv(x, Floor|Ceil) = Ok(ONE) for x != 0; x.rmul(ZERO, m) = Ok(ZERO); ZERO.rdiv(x, m) = Ok(ZERO).", "quantifier": "every value and mode", "why_tests_cant": "Whole value space.", "anchors": ["src/lib.rs: rmul, rdiv"]}
{"id": "C60", "title": "raw representation accessors are inverse", "statement": "from_bits(x.into_bits()) = x, from_bits(b).into_bits() = b, *x.as_bits() = x.into_bits(); value(from_bits(b)) = b * 10^-P.", "quantifier": "every raw value", "why_tests_cant": "Trivial but the basis of repr serialisation.", "anchors": ["src/lib.rs: from_bits, as_bits, into_bits (214-230)"]}
{"id": "C61", "title": "serde float modules round-trip where f64 does", "statement": "float::serialize writes f64::from(x) and float::deserialize of that gives Ok(x) (float_option likewise, None staying None) for raw values up to 2.2e15 (below 4e15 for precisions up to 22) other than MIN; float::deserialize of an integer token up to 2^53 gives exactly that integer or an error.", "quantifier": "every layout, precision, raw value in range, Option, integer token", "why_tests_cant": "Whole value space through a floating-point intermediate.", "anchors": ["src/serde.rs: float (282-315), float_option (317-357)"]}
{"id": "C62", "title": "conversion to f64 keeps the order", "statement": "If a <= b then f64::from(a) <= f64::from(b); hence f64::from(a) < f64::from(b) implies a < b.", "quantifier": "every layout, precision, pair of values", "why_tests_cant": "Two runs over all pairs; three roundings per conversion.", "anchors": ["src/lib.rs: From<FixedPoint> for f64 (714-721)"]}
{"id": "C63", "title": "conversion from f64 keeps the order", "statement": "If x <= y are finite and both are accepted by TryFrom<f64> then try_from(x) <= try_from(y); if |x| <= |y| and y is accepted, x is accepted and |try_from(x)| <= |try_from(y)|.", "quantifier": "every layout, precision, pair of finite f64", "why_tests_cant": "2^128 pairs; lossy scaling, trimming and rounding could each break the order at a boundary.", "anchors": ["src/float.rs: TryFrom<f64>"]}
{"id": "C64", "title": "what the conversion from f64 computes", "statement": "For finite x != 0 try_from(x) is: |x| (less a relative error of at most 1e-34; exactly |x| if |x| = n/2^k with n*5^k < 2^128), cut to the smallest decimal place that leaves a significand below 2^52 (at most the unit place), rounded to P digits, fractions above 4/9 going up in both roundings, then the sign; Err(too big number) iff the result exceeds MAX.", "quantifier": "every layout, precision, finite nonzero f64", "why_tests_cant": "Exact characterisation over 2^64 inputs and every precision.", "anchors": ["src/float.rs: TryFrom<f64>", "src/power_table.rs: rdiv_by_exponent_10 (739-751)"]}
{"id": "C65", "title": "provided saturating methods clamp for any implementor", "statement": "For a type that implements only cadd/csub/cmul/rmul, with the checked operation failing exactly outside [MIN, MAX]: saturating_add/saturating_sub give the exact result clamped to [MIN, MAX] if self lies in that range; saturating_mul/saturating_rmul give the (rounded) product clamped, for operands of any range, if MIN <= 0 <= MAX.", "quantifier": "every implementing type, every operand pair", "why_tests_cant": "Quantifies over all implementations of the trait.", "anchors": ["src/ops/mod.rs: saturating_add (82-96), saturating_sub (154-168), saturating_mul (229-244), saturating_rmul (328-343)"]}
{"id": "C66", "title": "symmetry under change of sign", "statement": "Let -a be the result of cneg. Whenever both calls return: rdiv(-a, b, mode') = rdiv(a, -b, mode') = -rdiv(a, b, mode), (-a).integral(mode') = -a.integral(mode), (-a).ceil() = -a.floor(), where mode' exchanges Floor and Ceil; half_sum(-a, -b, mode') = -half_sum(a, b, mode) for every mode; (-a).round_towards_zero_by(p) = -(a.round_towards_zero_by(p)) and the sign of p does not matter; next_power_of_ten(-a) and -next_power_of_ten(a) are the same number, up to representability, for a != 0.", "quantifier": "every layout, precision, build profile, mode, operand that can be negated", "why_tests_cant": "A relation between two results over all operand pairs.", "anchors": ["src/lib.rs: rdiv, integral, half_sum, round_towards_zero_by, next_power_of_ten"]}
{"id": "C67", "title": "multiplication undoes division", "statement": "If q = a.rdiv(b, mode) returns then |a - q*b| < EPSILON*|b|, and for Floor and b > 0 0 <= a - q*b < EPSILON*b; for a >= 0, b > 0 and Floor, q.rmul(b, Floor) succeeds with a result in [0, a]. For |b| >= 1, if p = a.rmul(b, mode) returns then p.rdiv(b, mode'') = Ok(a), and for |b| <= 1, if q = a.rdiv(b, mode) returns then q.rmul(b, mode'') = Ok(a), where mode'' is the opposite directed mode for b > 0, the same for b < 0, and Nearest for Nearest.", "quantifier": "every layout, precision, build profile, a, b, mode", "why_tests_cant": "Composition of two roundings; all pairs of operands.", "anchors": ["src/lib.rs: rmul, rdiv"]}
{"id": "C68", "title": "squares and square roots", "statement": "If s = x.rsqrt(Floor) returns then s.rmul(s, Floor) succeeds with a result <= x, and s^2 <= x < (s + EPSILON)^2; if s = x.rsqrt(Ceil) returns then s^2 >= x and s.rmul(s, Ceil) is Err(Overflow) or a value >= x. If |x| > 1/2 and x.rmul(x, Floor) = Ok(p) then p.rsqrt(Ceil) = Ok(|x|), whenever |x| is representable.", "quantifier": "every layout, precision, build profile, x", "why_tests_cant": "Composition of two algorithms on all inputs.", "anchors": ["src/lib.rs: rmul, rsqrt", "src/ops/sqrt.rs"]}
{"id": "C69", "title": "interval arithmetic is sound", "statement": "For an expression of any depth over +, -, *, /, sqrt and half_sum: evaluating lower bounds with Floor and upper bounds with Ceil by the rules of interval arithmetic gives two numbers that enclose the exact real value of the expression, whenever no operation reports an error.", "quantifier": "every layout, precision, build profile, expression", "why_tests_cant": "Quantifies over all programs built from the operations.", "anchors": ["src/lib.rs: cadd, csub, rmul, rdiv, rsqrt, half_sum, Ord"]}
{"id": "C70", "title": "rounding errors accumulate linearly", "statement": "For any sequence of steps cadd, csub, cneg, rmul by a factor of magnitude at most 1, rdiv by a divisor of magnitude at least 1, division by an integer, and half_sum, in any rounding modes: the result differs from the exact rational result by at most EPSILON times the number of rounding steps.", "quantifier": "every layout, precision, build profile, sequence of steps that reports no error", "why_tests_cant": "Sequences of unbounded length.", "anchors": ["src/lib.rs: cadd, csub, cneg, rmul, rdiv, half_sum", "src/ops/mod.rs: RoundingDiv"]}
{"id": "C71", "title": "amounts split without loss", "statement": "For x >= 0 and an integer n > 0: q = x.rdiv(n, Floor), s = q.cmul(n) and r = x.csub(s) all succeed, r = k*EPSILON with k < n, and k parts of q + EPSILON together with n - k parts of q are exactly x. half_sum(a, b, Floor) + half_sum(a, b, Ceil) = a + b.", "quantifier": "every layout, precision, build profile, x >= 0, n > 0; every a, b", "why_tests_cant": "All amounts and divisors.", "anchors": ["src/lib.rs: rdiv by integer, cmul, csub, half_sum"]}
{"id": "C72", "title": "text and number agree as orders and groups", "statement": "Two literals of the same number (leading/trailing zeros, plus sign, surrounding white space) parse alike. Parsing preserves order, and the literal of the opposite number parses to the opposite value. A literal is accepted iff its number is less than half a unit outside [MIN, MAX]. The text of -x is '-' followed by the text of x > 0. A canonical literal with at most P fractional digits that parses is printed again character for character.", "quantifier": "every layout, precision >= 1, build profile, literal; printing except FixedPoint<i128, U38>", "why_tests_cant": "Relations between pairs of strings of any length.", "anchors": ["src/string.rs: parse_str, stringify", "src/lib.rs: FromStr, Display"]}
{"id": "C73", "title": "derived impls, error texts and JSON schema agree with the number", "statement": "default() is zero. Two numbers feed a hasher the same data iff they are equal, iff cmp says Equal. Different ArithmeticErrors, and different ConvertErrors, have different Display texts; that of a ConvertError is the reason it was made with. A RoundMode cast to an integer is 1 (Ceil), 0 (Nearest), -1 (Floor). Everything Serialize writes in a human-readable format has the type declared by JsonSchema.", "quantifier": "every layout, precision, build profile, pair of numbers, hash function", "why_tests_cant": "All pairs of numbers.", "anchors": ["src/lib.rs: derive(Hash, Default, ...) (197)", "src/ops/mod.rs: RoundMode", "src/errors.rs", "src/schemars.rs", "src/serde.rs"]}
{"id": "C74", "title": "the precision passed to fixnum_const! fixes the scale, not the type", "statement": "fixnum_const!(lit, Q) used where a FixedPoint<layout, P> is expected denotes lit * 10^Q / 10^P; it is the number written iff Q = P or the number is zero. Nothing in the expansion relates Q to P, so a mismatch compiles.", "quantifier": "every literal text, layout, P, Q; builds with overflow checks; raw numbers the layout can hold", "why_tests_cant": "Each literal and precision is a separate compilation.", "anchors": ["src/macros.rs: fixnum_const (179-186), fixnum (227-231)", "src/const_fn.rs: parse_fixed"]}
{"id": "C75", "title": "the unsafe text buffer behind Display is used soundly", "statement": "Display writes into a fixed byte array without bounds checks and converts it to a string without a UTF-8 check. Whatever is printed consists of digits, points and minus signs and has at most 21 (with i128: 41) bytes; the bytes converted without a check are valid UTF-8; the byte buffer holds exactly the printed characters.", "quantifier": "every layout, precision, build profile, number", "why_tests_cant": "Undefined behaviour need not show in a test; all numbers and builds are covered.", "anchors": ["src/string.rs: StrBuf, push, push_str, as_str, stringify"]}
{"id": "C76", "title": "parsing never cuts a character in two", "statement": "from_str and from_str_exact work with byte lengths, byte indices and byte slices. On any Unicode text, including multi-byte white space and digits of other scripts, no slice or index panics, and the outcome is that of the same code reading characters. (A slice at n panics exactly if no beginning of the text has n bytes.)", "quantifier": "every layout, valid precision, build profile, Unicode text of any length", "why_tests_cant": "Byte-boundary panics occur only for particular multi-byte inputs.", "anchors": ["src/string.rs: parse_str, from_str, from_str_exact"]}
{"id": "C77", "title": "the internal integer square root is right for all ten primitive types", "statement": "The square root behind rsqrt, for i8 to i128 and u8 to u128, returns the greatest s with s^2 <= n, without panic, in builds with and without std.", "quantifier": "every primitive integer type, build profile, n >= 0 of the type", "why_tests_cant": "128-bit arguments; the f64 guess errs only for particular values.", "anchors": ["src/ops/sqrt.rs: impl_sqrt, fixpoint, log2, guess"]}
{"id": "C78", "title": "rounding errors grow by at most the later factors", "statement": "Run any sequence of +, - (also unary), * and / by constants, * and / by integers, and half_sum with a constant from a start value that is itself off by e. The result is off the exact one by at most the bound obtained from e by multiplying, at each step, with the step's factor (|c| for * c, 1/|c| for / c, 1/2 for half_sum, else 1) and adding the step's own error: 0 for the exact steps, half an EPSILON for Nearest in builds with overflow checks, one EPSILON otherwise. With factors up to g, n steps are off by at most EPSILON * (1 + g + ... + g^(n-1)).", "quantifier": "every layout, valid precision, build profile, start value, sequence of steps that reports no error", "why_tests_cant": "Sequences of any length over all constants.", "anchors": ["src/ops/mod.rs", "src/lib.rs: rmul, rdiv, half_sum, cadd, csub, cmul, cneg"]}
{"id": "C79", "title": "shifts, small factors and conversions of the private 256-bit type", "statement": "U256: x << s is x * 2^s modulo 2^256 and x >> s is x / 2^s rounded down, for every amount that fits in usize (256 and more included, giving zero), and a larger amount panics. The product with a u64 or usize is exact or panics, in every build, and is what the general product gives. From<u64> keeps the number; From<i64> keeps it and panics for a negative one.", "quantifier": "every 256-bit number, shift amount, factor, width of usize up to 64, build profile", "why_tests_cant": "256-bit operands; nothing in the crate calls these operators, so no test reaches them.", "anchors": ["src/i256/u256.rs: as_usize, Shl, Shr, impl_mul_for_primitive, From<u64>, From<i64>"]}
{"id": "C80", "title": "a wider layout computes the same", "statement": "Take the same precision in a narrow layout and in a wider one, and operands that are the same numbers. Whatever cadd, csub, cmul, cneg, abs, rmul, rdiv, rdiv by an integer, recip, half_sum, rsqrt, next_power_of_ten, from an integer or from a decimal returns in the narrow layout, the wider one returns too; an error in the wider one is the same error in the narrow one; the narrow one has no other errors than for results outside its range. Comparison, Display (precision at least 1), conversion to f64, to_decimal and round_towards_zero_by agree; parsing accepts in the narrow layout exactly what the wider one reads as a number in the narrow range; the saturating operations clamp the wider result. Hence a calculation that succeeds in the narrow layout gives the same number in the wider one.", "quantifier": "every pair of layouts of different width, every precision valid for both, all operands and modes; the narrow build has overflow checks where Nearest division or calculations are concerned; integral, floor, ceil, round: not for MIN of the narrow layout unless it panics; from_decimal: powers of ten that fit the narrow layout; for f64 one build for both", "why_tests_cant": "Pairs of types over all operands; each layout uses a different intermediate type.", "anchors": ["src/lib.rs: impl_fixed_point", "src/ops/mod.rs", "src/string.rs", "src/float.rs"]}
{"id": "C81", "title": "what survives a change of type", "statement": "Display in one type read by another: from_str gives the number rounded to the new precision (Nearest) or an error, from_str_exact gives exactly the number or an error; two types print the same text iff the numbers are equal; a type of precision 0 reads no printed text, its own included. to_decimal followed by from_decimal gives the number, or reports that it is out of range, or that it has too many digits. SCALE bytes and the binary serde formats carry the raw integer instead: at another precision the number is scaled by the ratio of the powers of ten; a wider layout rejects the bytes, a narrower one leaves some unread. Human-readable serde carries the number.", "quantifier": "every pair of layouts, precisions and builds, every number; text and human-readable serde: every source number for which nothing overflows in printing (see C28) and whose text fits the buffer; decimals: max exponent between minus either precision and 0 and a mantissa that fits", "why_tests_cant": "Pairs of types over all numbers.", "anchors": ["src/string.rs", "src/lib.rs: to_decimal, from_decimal", "src/parity.rs", "src/serde.rs"]}
{"id": "C82", "title": "rounding what is already round changes nothing", "statement": "floor, ceil and round return integral values, and return an integral value unchanged, so applying any of them after any of them changes nothing; integral of an integral value is that integer in every mode. round_towards_zero_by p and then by a nonzero multiple of p is round_towards_zero_by the multiple. next_power_of_ten of a result of next_power_of_ten is that result, and for a nonzero number it is at least the number and less than ten times it in magnitude. half_sum of x and x is x, abs of abs is abs, negating twice gives the number back.", "quantifier": "every layout, valid precision, build profile, number, mode; MIN excluded for floor, ceil, round and integral (see C18, C19)", "why_tests_cant": "All numbers and multiples.", "anchors": ["src/lib.rs: floor, ceil, round, integral, round_towards_zero_by, next_power_of_ten, half_sum, abs, cneg"]}
{"id": "C83", "title": "the laws of arithmetic that survive rounding", "statement": "(a*b)*c and a*(b*c) differ by less than EPSILON * (|a| + |c| + 2). (a+b)*c and a*c + b*c differ by at most two EPSILON, and so do (a+b)/c and a/c + b/c; with Floor throughout the sum of the parts is never more and at most one EPSILON less (Ceil: the other way round). Dividing by a positive integer and then by another, or by a fixed-point number and then by a positive integer, in a directed mode, is dividing once by the product. For c > 0: x <= a/c rounded down iff x*c rounded up <= a, and dually. Multiplication by an integer distributes exactly, and dividing by the integer again gives the number back in every mode.", "quantifier": "every layout, valid precision, build profile, all numbers for which the operations report no error, all modes unless named; not MIN divided by -1", "why_tests_cant": "Triples of numbers and combinations of modes.", "anchors": ["src/ops/mod.rs", "src/lib.rs: rmul, rdiv, cadd, cmul"]}
{"id": "C84", "title": "the compact SCALE encoding", "statement": "Decoding the Compact encoding of a number gives the number and leaves the rest of the input; nothing but the encoding of a number is decoded to it (each number has one compact encoding, longer forms are refused); decoding never panics. A non-negative number with raw value below 2^6, 2^14, 2^30 takes 1, 2, 4 bytes, else one more than its own bytes; a negative number takes more bytes than the plain encoding (one more, with i16 two).", "quantifier": "every layout, precision, number, input bytes", "why_tests_cant": "All byte strings and all numbers.", "anchors": ["src/parity.rs: CompactAs, From<Compact>"]}
{"id": "C85", "title": "bisection with half_sum", "statement": "The usual search that halves an interval with half_sum(lo, hi, Floor), keeping a predicate true at lo and false at hi and stopping when the midpoint is lo, ends after at most one midpoint per bit of the layout and one more, never overflows or panics, and returns x such that the predicate holds at x and fails at x + EPSILON; for a downward closed predicate x is the largest number satisfying it. With Nearest the same loop does not end.", "quantifier": "every layout, precision, build profile, every predicate, every interval including [MIN, MAX]", "why_tests_cant": "All predicates on 2^128 numbers; termination.", "anchors": ["src/lib.rs: half_sum", "src/ops/mod.rs"]}
{"id": "C86", "title": "averages and interpolation stay within their bounds", "statement": "The sum of a list by cadd divided by its length lies between any lower and upper bound of the elements, is within one EPSILON of the exact mean, is x if all elements are x, and exists whenever the sum does (with Nearest, of no more than half as many elements as the layout counts). a + (b - a) * t with 0 <= t <= 1 lies between a and b, is within one EPSILON of the exact value, is a for t = 0 and b for t = 1, exists whenever b - a does (but for Nearest on FixedPoint<i128, U38>), and is monotone in t (rising if a <= b, falling if b <= a).", "quantifier": "every layout, valid precision, build profile, list, numbers, mode", "why_tests_cant": "Lists of all lengths, all numbers.", "anchors": ["src/lib.rs: cadd, csub, rmul, rdiv"]}
{"id": "C87", "title": "repeated multiplication by rates", "statement": "A chain of multiplications and divisions by positive rates never yields more than the exact product with Floor and never less with Ceil; so with rates of product at most one no amount grows by going round in a circle with Floor. With Floor a chain starting from x >= 0 fails only if an exact product on the way is out of range. With rates of at most one the error is at most one EPSILON per conversion in any mode. A non-negative x times a rate r in [0, 1] is x itself iff x(1-r) = 0 (Floor), < EPSILON (Ceil), <= EPSILON/2 (Nearest). Multiplying x >= 0 again and again by r in [0, 1] never fails and has come to rest after x/EPSILON steps: for Floor and r < 1 at zero, for Ceil and r > 0 never at zero unless x is.", "quantifier": "every layout, valid precision, build profile, all numbers, chains and step counts; Nearest: not i128 with 38 digits", "why_tests_cant": "Chains of all lengths; the resting points depend on all digits.", "anchors": ["src/lib.rs: rmul, rdiv", "src/ops/mod.rs"]}
{"id": "C88", "title": "sums with saturating_add", "statement": "Adding numbers of one sign (all >= 0 or all <= 0) to any number with saturating_add gives the exact sum clamped to [MIN, MAX], in whatever order they are added. For any signs the result is monotone in every summand, and equals the checked sum where that exists. With both signs the order matters.", "quantifier": "every layout, precision, start value and list", "why_tests_cant": "Lists of all lengths and orders.", "anchors": ["src/lib.rs: saturating_add", "src/ops/mod.rs"]}
{"id": "C89", "title": "an amount can be divided among n parties without loss", "statement": "q = x.rdiv(n, Floor), rest = x - q*n: giving q + EPSILON to as many parties as rest has units and q to the others never fails for x >= 0 and n > 0; the n shares add up to x exactly without overflow on the way, each is less than one EPSILON away from x/n, any two differ by at most one EPSILON and the larger ones come first. For negative x the product q*n can overflow.", "quantifier": "every layout, precision, build profile, x >= 0, n > 0", "why_tests_cant": "All pairs of amounts and divisors.", "anchors": ["src/lib.rs: rdiv (integer divisor), cmul, csub, cadd"]}
{"id": "C90", "title": "geometric mean and hypotenuse", "statement": "For a, b >= 0: rsqrt(a*b) with Floor is at most half_sum(a, b, Floor) and at most max(a, b), with Ceil at least min(a, b), and the two enclose the exact root; it exists whenever the product does. rsqrt(a*a + b*b) with Ceil is at least |a| and |b|, with Floor at most |a| + |b|, and c with Floor satisfies c^2 <= a^2 + b^2 < (c + EPSILON)^2 + 2 EPSILON.", "quantifier": "every layout, valid precision, build profile, numbers for which the operations report no error", "why_tests_cant": "All pairs of numbers.", "anchors": ["src/lib.rs: rmul, rsqrt, half_sum, cadd"]}
{"id": "C91", "title": "what the serde modules accept", "statement": "repr::deserialize reads exactly the integers that fit the layout (contents wider than 64 bits only with i128) as raw values. str::deserialize reads exactly the texts borrowed from the input that FromStr accepts, as the same number; a text that does not parse is an invalid value, any other content (also a temporary string) an error. float::deserialize reads floats and integers of at most 64 bits, as TryFrom<f64> converts the float or the one nearest to the integer; when that fails (NaN, infinity, out of range) it is an invalid value. Every rejected content gets one definite error: an invalid value for an integer out of range or bytes that are not UTF-8, otherwise an invalid type named as serde names that kind of content (integers of at most 64 bits by value, wider ones written out with their type). The _option modules give None exactly for an absent value or unit and otherwise what the plain module gives, errors included. None of them ever panics.", "quantifier": "every layout, valid precision, build profile, every content", "why_tests_cant": "All strings, floats and integers in all kinds of contents.", "anchors": ["src/serde.rs: repr, repr_option, str, str_option, float, float_option"]}
{"id": "C92", "title": "running error bounds for arbitrary expressions", "statement": "Evaluating an expression of +, -, rmul, rdiv, rsqrt and half_sum, each rounding in a mode of its own, and carrying along a bound built from the numbers computed - sums add the bounds e, f; products |a|f + |b|e + ef; quotients (e + |a/b| f)/(|b| - f) while f < |b|; roots sqrt(e); means (e + f)/2; each rounding adds one EPSILON, for Nearest half of it (products and quotients: with overflow checks) - the number computed differs from the real number the expression denotes by at most the bound. Every successful evaluation whose divisors are given numbers has such a bound.", "quantifier": "every layout, valid precision, build profile, every expression, all modes", "why_tests_cant": "All expressions of all depths with irrational values.", "anchors": ["src/lib.rs: cadd, csub, rmul, rdiv, rsqrt, half_sum"]}
{"id": "C93", "title": "a constant-product pool never loses by rounding down", "statement": "A pool with reserves x, y > 0 that takes d >= 0 of the one and pays rdiv(rmul(y, d, Floor), x + d, Floor) of the other: the payment is nonnegative, less than y, at most y d/(x + d) and less than EPSILON (1 + 1/(x + d)) below it, and the product of the reserves does not decrease. No sequence of such exchanges in either direction lowers the product or empties a reserve, so whoever restores one reserve gains none of the other. An exchange fails only if x + d or y d is out of range. With Nearest one can gain.", "quantifier": "every layout, valid precision, build profile, all positive reserves, all sequences of exchanges that report no error", "why_tests_cant": "Sequences of all lengths over all amounts.", "anchors": ["src/lib.rs: cadd, csub, rmul, rdiv"]}
{"id": "C94", "title": "vault shares never lose value by rounding down", "statement": "A vault of assets x > 0 and shares y > 0 that creates rdiv(rmul(a, y, Floor), x, Floor) shares for a deposit a >= 0 and pays rdiv(rmul(s, x, Floor), y, Floor) for s shares, 0 <= s < y: the assets per share never decrease, over any sequence of operations, and depositing and redeeming at once returns at most the deposit. What is created or paid is less than EPSILON (1 + 1/x), EPSILON (1 + 1/y) below the exact number. An operation with 0 <= s < y fails only if the product, or for a deposit the exact new assets or shares, are out of range. With Ceil it is false.", "quantifier": "every layout, valid precision, build profile, all positive states, all sequences of operations that report no error", "why_tests_cant": "Sequences of all lengths over all amounts.", "anchors": ["src/lib.rs: cadd, csub, rmul, rdiv, Ord"]}
{"id": "C95", "title": "running means stay among the observations", "statement": "m + (x - m).rdiv(n, mode) for n >= 1 lies between m and x in every mode, also where Nearest wraps, and is less than one EPSILON from m + (x - m)/n; fed with any sequence it never leaves the range of start value and observations. It exists whenever x - m does, with Nearest if n is no more than half of what the layout counts.", "quantifier": "every layout, precision, build profile, all numbers and n >= 1", "why_tests_cant": "Sequences of all lengths; all divisors.", "anchors": ["src/lib.rs: csub, rdiv (integer divisor), cadd"]}
{"id": "C96", "title": "fees rounded up", "statement": "For an amount a >= 0 and a rate 0 <= r <= 1: f = rmul(a, r, Ceil) and n = a - f never fail, add up to a, f is at least a r and less than one EPSILON above, n >= 0, and n is what rmul(a, 1 - r, Floor) gives. Both are monotone in a, and splitting a payment in two never lowers the total fee and raises it by at most one EPSILON.", "quantifier": "every layout, valid precision, build profile, all amounts and rates in the range", "why_tests_cant": "All amounts, rates and splits.", "anchors": ["src/lib.rs: rmul, csub"]}
{"id": "C97", "title": "compound interest", "statement": "Crediting rmul(x, r, mode), r >= 0, n times: the balance differs from x (1 + r)^n by at most EPSILON (1 + (1 + r) + ... + (1 + r)^(n-1)); with Floor it is at most, with Ceil at least the exact one. For x >= 0 (but for Nearest on FixedPoint<i128, U38>) it never falls, and is monotone in balance and rate; and no step fails while the exact balance and the error bound are together in range.", "quantifier": "every layout, valid precision, build profile, all numbers and step counts for which no step reports an error", "why_tests_cant": "All step counts, rates and balances.", "anchors": ["src/lib.rs: rmul, cadd"]}
{"id": "C98", "title": "which calls do not return", "statement": "Every call of the public interface returns a value or an error, except the calls in an explicit list. Panics: Nearest multiplication and division whose doubled remainder leaves the type (overflow checks on); integer division MIN / -1; integral of MIN, or of a large fraction with Nearest on FixedPoint<i128, U38> (overflow checks on); floor, ceil and round of a number whose rounded value is out of range, and of MIN with overflow checks; from_decimal whose multiplier exceeds the layout (overflow checks on); to_decimal with max_exponent < -P; printing where something overflows (overflow checks on) or the text is longer than the buffer (debug assertions on). Writing outside the buffer: printing a text longer than the buffer without debug assertions. No call runs forever. A release build panics only for MIN / -1, floor, ceil, round out of range and to_decimal.", "quantifier": "every layout, valid precision, build profile, every call with all arguments", "why_tests_cant": "Both directions for every call and argument; that nothing else panics is a universal statement.", "anchors": ["src/lib.rs", "src/ops/mod.rs", "src/string.rs", "src/float.rs", "src/serde.rs", "src/parity.rs", "src/i256/mod.rs"]}
{"id": "C99", "title": "the start value of the square root", "statement": "For every integer x >= 4 of at most 64 bits: with std the start value of the Newton iteration, (x as f64).sqrt() as int, is the truncation of the f64 nearest to the real root of the f64 nearest to x, without saturation, and is the integer root or one more, so that at most three steps are needed; without std it is a power of two within a factor sqrt(2) of the root.", "quantifier": "all integers from 4 to the maximum of each type of 8 to 64 bits, every build", "why_tests_cant": "2^64 arguments; near squares the conversion to f64 rounds across the square.", "anchors": ["src/ops/sqrt.rs: guess, fixpoint"]}
{"id": "C100", "title": "programs with branches, loops and error handling", "statement": "A program over variables of one fixed-point type, built from the operations that yield a number, `?`, `match` on errors, comparison and `while`: its outcome is unique; what ends without a panic in one build ends in the same way in every build of the same features, or panics there, and never panics for this reason in a release build. A program without Nearest quotients (nor Nearest products on FixedPoint<i128, U38>), without division by the integer -1 and without floor, ceil and round never panics and has the same outcome in all builds, with and without std and i128. A program that neither saturates nor recovers from range errors and that ends with a result on a narrow layout, in a build with overflow checks, ends with the same numbers on every wider layout in every build.", "quantifier": "every layout, valid precision and pair of builds, all programs and all start values", "why_tests_cant": "All programs, with unbounded loops; two builds or two types at a time.", "anchors": ["src/lib.rs", "src/ops/mod.rs", "src/ops/sqrt.rs"]}
{"id": "C101", "title": "the operations as functions on rational numbers", "statement": "For each of rmul, saturating_rmul, rdiv (by a number, by an integer, of an integer), recip, half_sum, rsqrt, next_power_of_ten, round_towards_zero_by, integral, floor, ceil, round and the checked and saturating sums there is an explicit function on rational numbers that gives the outcome (number, error or panic) for all operands in every build, including the cases in which the code is wrong or panics. A program with branches, loops and error handling run on machine words gives what it gives on rational numbers with these functions. Of the build only the overflow checks matter.", "quantifier": "every layout, valid precision and build, all operands, modes, programs and start values", "why_tests_cant": "Every operand pair, in all builds, including the exceptional ones.", "anchors": ["src/lib.rs", "src/ops/mod.rs", "src/ops/sqrt.rs"]}
{"id": "C102", "title": "the reason given for a rejected conversion", "statement": "from_str and from_str_exact fail on a text with a given message exactly if the text without the white space around it meets the condition of that message; the conditions exclude one another. Without a point: not an integer of the layout (\"can't parse integer\"), an integer out of range (\"too big number\"). With a point: before it no integer of the layout (\"can't parse integral part\"); after it something other than digits (\"can't parse fractional part: must contain digits only\"); exact and more than P digits (\"requested precision is too high\"); no digits after the point, or P = 0 in from_str (\"can't parse fractional part\"); integral part not representable (\"too big integral\"); rounded number not representable (\"too big number\"), in this order. Likewise the messages of from_decimal, TryFrom of integers and of f64.", "quantifier": "every layout, valid precision and build, all texts, integers, mantissas and exponents, floats (the power of ten of from_decimal within the layout)", "why_tests_cant": "All texts; that a message is never given for another reason is a universal statement.", "anchors": ["src/string.rs: parse_str", "src/lib.rs: from_decimal, TryFrom", "src/float.rs"]}
{"id": "C103", "title": "the conversion from f64 as an explicit function", "statement": "For every f64: NaN and infinities are rejected, zeros give zero, and for any other x the result is |x| cut to the smallest decimal place that leaves a significand below 2^52 (at most the unit place), then rounded to P digits, fractions above 4/9 going up in both roundings, with the sign of x; Err(too big number) iff that exceeds MAX. The digits that the code drops while scaling by powers of two and five never change the outcome, nor does the build.", "quantifier": "every f64, layout, precision up to 38 digits and build", "why_tests_cant": "All 2^64 floats; the truncation matters only for floats within one part in 2^113 of a rounding boundary, which tests cannot find if they exist.", "anchors": ["src/float.rs: TryFrom<f64>", "src/power_table.rs"]}
{"id": "C104", "title": "the f64 nearest to a decimal number is converted to that number", "statement": "If x is the f64 nearest to a decimal number d of at most 15 significant digits (or with a significand below 2^52) and at most P decimal places, then try_from(x) = Ok(d), or Err(too big number) if d exceeds MAX. (Turns out false for some d whose digits begin with 4.003 to 4.503, such as 4096.029 at 12 or more places, where one unit of the 16th digit is added; true for all others, in particular for every number other than MIN with a raw value up to 4e15.)", "quantifier": "every layout, precision up to 38 digits and build, all decimal numbers with significand below 2^52", "why_tests_cant": "10^15 literals per exponent, of which about one in a thousand is affected, and only at high precision.", "anchors": ["src/float.rs: TryFrom<f64>"]}
{"id": "C105", "title": "the conversion to f64 rounds to nearest", "statement": "f64::from(x) is the f64 nearest to x. (Turns out false: 1.14 with two digits becomes 1.1400000000000001, since the fraction is rounded before the sum. With at most 15 digits it is nearest for |x| < 1; for all x it is next to x, that is no f64 lies strictly between, and x itself if x is an f64. With more digits every type has an x for which even that fails.)", "quantifier": "every layout and build, all numbers; the positive part for precisions up to 15 digits", "why_tests_cant": "All raw values up to 128 bits; the wrong roundings are rare.", "anchors": ["src/lib.rs: From<FixedPoint> for f64"]}
{"id": "C106", "title": "f64 to FixedPoint and back to f64", "statement": "If f is the f64 nearest to a number x of the type with a raw value below 4e15 in magnitude (other than MIN), then f64::from(try_from(f)) = f. (Turns out false for 1.14 at two digits, which comes back as 1.1400000000000001. With at most 15 digits: try_from(f) = Ok(x), f64::from(x) is f or the neighbour of f on the other side of x, is f if |x| < 1 or f = x, and converts to x again.)", "quantifier": "every layout and build, precisions up to 15 digits, all such numbers", "why_tests_cant": "10^15 numbers per precision; errors of one unit in the last place in rare cases.", "anchors": ["src/float.rs", "src/lib.rs: From<FixedPoint> for f64"]}
{"id": "C107", "title": "a number in a document means the same as a string and as a number", "statement": "The same decimal number, written in a self-describing document as a string, as an integer or as a float (the nearest f64, as a JSON parser delivers it), is deserialised to the same value. (Turns out false for numbers with more digits than the type has: 0.445 with one digit is 0.4 as a string and 0.5 as a float; and for 4096.029 with 12 digits. True for every number of the type with a raw value up to 4e15, other than MIN, with Deserialize and with the float module; otherwise, up to 2^51 raw units, the two readings differ by at most one unit.)", "quantifier": "every layout, valid precision from 1, build, all such numbers and ways to write them", "why_tests_cant": "All decimal texts and floats; text and float take unrelated code paths that must agree on each number.", "anchors": ["src/serde.rs", "src/string.rs: parse_str", "src/float.rs"]}
{"id": "C108", "title": "the conversion to f64 as an explicit function", "statement": "f64::from(x) returns f exactly if f results from five correctly rounded (nearest, ties to even) steps: the integer part of x towards zero, the rest in units of 10^-P, the number 10^P, the quotient of the last two results, and the sum of the first and this quotient. The result is the same in every build.", "quantifier": "every layout, valid precision, build and number", "why_tests_cant": "All raw values up to 128 bits; each step loses bits in its own way, and only the bit pattern shows it.", "anchors": ["src/lib.rs: From<FixedPoint> for f64"]}
{"id": "C109", "title": "how often the loops run", "statement": "Without the feature std, the root of an integer of at most 64 bits takes at most six evaluations of the Newton step: one before the loops and at most five in them (none or one in the first; with std it is at most three, see C99). The root of a u128 takes at most 32 divisions by four before it is one of a u64, that of a 256-bit number at most 64 before it is one of a u128. In the 256-bit division each trial digit is corrected at most twice by its loop, in div_mod_word and in div_mod_knuth, and is then the quotient of the leading digits. The loop of to_decimal runs less often than the mantissa has digits. Each bound is attained.", "quantifier": "every integer type of the square root, every argument from 4 on that fits it; every u128 and U256; every normalised divisor and every dividend; every layout, mantissa, exponent", "why_tests_cant": "Counts of iterations are not observed by tests; the bounds concern all 64-bit and 256-bit arguments.", "anchors": ["src/ops/sqrt.rs", "src/i256/u256.rs: div_mod_word, div_mod_knuth, sqrt", "src/lib.rs: to_decimal"]}
{"id": "C110", "title": "user types around FixedPoint", "statement": "For a user type F with Into<FixedPoint> and From<FixedPoint>, the serde modules repr, str, float and their option forms write the same as for the number inside, and read From of what they read as a number, with the same errors. If From undoes Into, a value of F comes back through repr always, through str and float whenever the number inside does (C49, C61). fixnum!(..) at type F is From of the number literal. saturating_add and saturating_sub defined by impl_op! hand the clamped exact result to From.", "quantifier": "every type F, every pair of conversions, layout, precision, build, value and content", "why_tests_cant": "The conversions are code of the user; tests pick one or two wrappers.", "anchors": ["src/serde.rs: repr, str, float", "src/macros.rs: fixnum!, impl_op!"]}
{"id": "C111", "title": "readers and writers that fail", "statement": "With a serializer, formatter, deserializer, SCALE input or output that may fail or panic: serialising and formatting hand over one token or text and return what the other side returns, never an error of their own. Deserialising returns an error of the format's own exactly if the deserializer itself fails; with the feature quick-xml, an error while a map's first key or the value after it is read becomes the error that a map is an invalid type. Encoding makes one write, of the bytes of C48. Decoding makes one read, of one number's size; its error becomes the crate's, and any bytes read are those of exactly the number returned.", "quantifier": "every serializer, formatter, deserializer, input, output, layout, precision, build and number", "why_tests_cant": "The other side is code of other crates; tests use those that do not fail.", "anchors": ["src/serde.rs: Serialize, Deserialize, visit_map", "src/lib.rs: Display, Debug", "src/parity.rs: encode_to, decode"]}
{"id": "C112", "title": "records of numbers survive being written and read", "statement": "A message made of numbers of declared types, each written with Encode or as Compact, is decoded to the same numbers in the same order, leaving exactly the bytes that follow; and only the bytes of a record are decoded to it, so that no record's bytes are another's or the beginning of another's. The same holds for a vector of fewer than 2^32 numbers with its length in front. Any bytes are decoded as a record or rejected with an error, never with a panic. A line of printed numbers, with any separator character other than digits, sign and point, split at the separator and parsed field by field gives the same numbers. A line is read as a record exactly if it has as many texts as fields and each is a number in decimal notation, of which the record has the nearest of the field's type.", "quantifier": "every list of layouts, precisions and compact markers, every record, every input; text: valid precisions from 1 other than 38 on i128, every such separator, every build", "why_tests_cant": "All records over all types; a byte too many or too few in one field shifts all later ones.", "anchors": ["src/parity.rs", "src/string.rs: parse_str, stringify", "src/lib.rs: Display"]}
{"id": "C113", "title": "weighted means", "statement": "The mean of prices p_i with non-negative weights w_i, computed as the sum of p_i.rmul(w_i, mode) divided by the sum of the weights with rdiv(mode): with Floor it is never above the exact weighted mean, less than 1 + n/W units in the last place below it (n prices, total weight W), and never above a number that no price exceeds; with Ceil the mirror image. If all weights are zero, and only then, the result is DivisionByZero (in any mode; not Nearest on FixedPoint<i128, U38>); every other failure with Floor and Ceil is Overflow.", "quantifier": "every layout, valid precision, build, every list of prices and weights", "why_tests_cant": "Lists of any length; the error depends on the number of terms and the total weight.", "anchors": ["src/lib.rs: RoundingMul, RoundingDiv, CheckedAdd"]}
{"id": "C114", "title": "the other operations keep the order", "statement": "half_sum in both arguments, floor, ceil, round, round_towards_zero_by, next_power_of_ten, the saturating operations and the conversions from integers and decimals are monotone: of two arguments the greater gives a result that is not smaller (saturating_sub antitone in the second argument). A factor that is not positive reverses the order. A larger divisor of the same sign gives a quotient closer to zero, and recip reverses the order of numbers of one sign. (rmul, rdiv in the dividend, rsqrt and integral are C56.)", "quantifier": "every layout, valid precision and build, all numbers for which the calls return; round on i128 with 38 digits, and a negative factor or the divisor with Nearest, only with overflow checks (round is not monotone there without: 0.6 becomes 1, 0.9 becomes 0); decimals with 10^(exponent + P) up to MAX (see C24)", "why_tests_cant": "Pairs of calls over the whole range; the rounding near a change of sign or of the rounding case could cross.", "anchors": ["src/lib.rs: half_sum, floor, ceil, round, round_towards_zero_by, next_power_of_ten, recip, rdiv, rmul, saturating_*, from_decimal"]}
{"id": "C115", "title": "different ways to compute the same number agree", "statement": "cmul(n) is rmul by the number n is converted to, in every mode; it is also adding the number n times to zero, with the overflow reported by both or neither. n.rdiv(x) is the converted n divided by x; x.rdiv(n) is x divided by the converted n (Floor, Ceil; not MIN / -1, where one panics and the other returns Overflow). try_from(n), from_decimal(n, 0) and from_str_exact of n however written accept the same integers and give the same number. csub is cadd of cneg. half_sum is the sum divided by the integer 2, if the sum exists (Nearest: unless both are negative). A saturating operation is the checked one where that returns. round_towards_zero_by(1) is floor from zero upwards and ceil below. floor, ceil and round are integral, converted back.", "quantifier": "every layout, valid precision and build, all such arguments", "why_tests_cant": "Equality of two functions on all arguments, including which of them fail.", "anchors": ["src/lib.rs: cmul, cadd, csub, cneg, rmul, rdiv, half_sum, saturating_*, floor, ceil, round, integral, round_towards_zero_by, from_decimal, TryFrom", "src/string.rs: from_str_exact"]}
{"id": "C116", "title": "the maximal calculation error", "statement": "The documentation gives ERROR_MAX = 0.5 / 10^PRECISION as the maximal possible calculation error: whatever rmul, rdiv, recip, half_sum, rsqrt and the parsing of text return differs from the exact result by at most half a unit of the last place. (Turns out true for Nearest in builds with overflow checks only, for half_sum, rsqrt and from_str in every build. False for Floor and Ceil, for Nearest without overflow checks, and for TryFrom<f64>. What holds in every mode and build is less than one unit, and that bound is the best one for every type.)", "quantifier": "every layout, valid precision, build, mode and operands for which the call returns", "why_tests_cant": "A bound over all operands and modes; the builds in which it fails are not those tested.", "anchors": ["src/lib.rs: documentation of FixedPoint (188-196), rmul, rdiv, recip, half_sum, rsqrt", "src/string.rs: from_str", "src/float.rs"]}
{"id": "C117", "title": "more digits compute the same, to the coarser digits", "statement": "Let the same numbers be held by FixedPoint<L, P> and FixedPoint<L', P'> with P <= P'. cadd, csub, cmul, cneg, abs and next_power_of_ten (not of zero) return the same number in both; rmul, rdiv (also by and of integers), recip, half_sum and rsqrt with Floor or Ceil return with P digits exactly the result with P' digits rounded the same way. If L' is not wider than L, whatever returns with P' digits returns with P digits. Order, round_towards_zero_by and integral (numbers other than MIN) do not depend on the digits. In any mode the two results differ by less than the sum of the two units, with Nearest (overflow checks on) by at most the sum of the half units; that Nearest is not exact rounding of the finer result is shown by 0.89 * 0.05. Of any expression of + - * / sqrt and half sums evaluated with lower and upper bounds, the interval with more digits lies within the interval with fewer.", "quantifier": "every two layouts, valid precisions P <= P', builds, all operands; expressions of any depth", "why_tests_cant": "Pairs of types; generic code is tested with one or two precisions.", "anchors": ["src/lib.rs: FixedPoint<L, P>, all operations"]}
{"id": "C118", "title": "powers by repeated squaring", "statement": "x^n computed by squaring with rmul along the binary digits of n: with Floor the result is at most x^n and with Ceil at least, for every x that is not negative. For x from 0 to 1 it is always computed (no overflow, no panic), lies again between 0 and 1, and is off by at most n - 1 units of the last digit in every mode - exact for n up to 1. Powers keep the order of their bases.", "quantifier": "every layout, valid precision, exponent, base, mode and build; that powers are always computed: not Nearest with 38 digits on i128", "why_tests_cant": "Unboundedly many exponents; an error in rmul that depends on its operands is amplified by the squarings.", "anchors": ["src/lib.rs: rmul, ONE"]}
{"id": "C119", "title": "a ledger neither creates nor loses money", "statement": "For balances that are changed only by transfers (csub from one account and cadd to another, after comparing the amount with zero and the balance) and by fees (a transfer of amount.rmul(rate, mode)), and with failing moves skipped: the total of the balances never changes and no balance gets negative, whichever moves fail and however fees are rounded. A transfer succeeds exactly if the amount is not negative and covered; as long as the total is in the range of the type, it never overflows. Moves never panic. Every balance changes by exactly what came in less what went out, so the order of successful transfers does not matter.", "quantifier": "every layout, precision, number of accounts, balances, sequence of moves and build; that moves never panic: valid precisions, and not fees rounded to Nearest with 38 digits on i128", "why_tests_cant": "All sequences of moves over all balances.", "anchors": ["src/lib.rs: cadd, csub, rmul, PartialOrd"]}
{"id": "C120", "title": "an exact result is returned exactly", "statement": "If the exact product, quotient (also by and of integers), reciprocal, mean, square root or parsed number has at most P decimals and is in the range, then rmul, saturating_rmul, rdiv, recip, half_sum, rsqrt and from_str return exactly it, whatever the rounding mode and the build; integral of a whole number is that number. This has no exception: not even where Nearest panics or rounds wrongly for other operands.", "quantifier": "every layout, valid precision, operands, mode and build; n.rdiv(x) for n in the range of the type; from_str with at least one decimal; for types without decimals not integral of MIN", "why_tests_cant": "All operands with an exact result, in all modes; the rounding test must never be reached or never change such a result.", "anchors": ["src/lib.rs: rmul, saturating_rmul, rdiv, recip, half_sum, rsqrt, integral", "src/string.rs: from_str"]}
{"id": "C121", "title": "reciprocals", "statement": "x times recip(x) misses 1 by less than |x| units of the last digit. a.rmul(recip(b)) differs from a.rdiv(b) by less than |a| + 2 units, whatever the modes; for a >= 0 it is at most a.rdiv(b) if all is rounded by Floor and at least a.rdiv(b) if all is rounded by Ceil. The reciprocal y of x has a reciprocal within 1 + |x|/|y| units of x. The reciprocals by Floor and Ceil are the same number y exactly if x * y = 1.", "quantifier": "every layout, valid precision, operands, modes and build for which the calls return", "why_tests_cant": "Compositions of two or three rounded operations on all operands.", "anchors": ["src/lib.rs: recip, rmul, rdiv"]}
{"id": "C122", "title": "the exponential series", "statement": "1 + x + x^2/2! + ... + x^n/n! computed with rmul, rdiv by an integer and cadd: for x >= 0 the result with Floor is at most exp(x), with Ceil at least the partial sum. For |x| <= 1 it is within 3n units of the last digit of the partial sum in every mode and build, so that Floor and Ceil enclose exp(x) up to the remainder (n+2)/((n+1)!(n+1)). For x from 0 to 1 it is always computed if the type goes up to n + 1.", "quantifier": "every layout, valid precision, number of terms up to MAX of the layout, x, mode and build", "why_tests_cant": "A loop of rounded operations for all x and n, compared with a transcendental function.", "anchors": ["src/lib.rs: rmul, rdiv, cadd, ONE"]}
{"id": "C123", "title": "sharing out in proportion", "statement": "An amount x >= 0 is shared out among parties with weights w_i >= 0: each gets x.rmul(w_i, Floor).rdiv(W, Floor), W the sum of the weights by cadd, and the share is taken off what is left. The shares and the rest add up to x exactly, no more is given out than there is, and less than (1 + 1/W) units of the last digit per party are left. Each share is at most the exact one and less than 1 + 1/W units below it; who has more weight gets no less. It succeeds whenever W and x * W are in the range, and gives DivisionByZero if all weights are zero.", "quantifier": "every layout, valid precision, build, amount, number of parties and weights", "why_tests_cant": "All lists of weights; the losses of many roundings add up.", "anchors": ["src/lib.rs: rmul, rdiv, cadd, csub"]}
{"id": "C124", "title": "repaying a loan", "statement": "Every period a debt grows by debt.rmul(rate, mode) with cadd, and a fixed payment, or the whole debt if that is less, is taken off by csub, until the debt is zero. The payments add up to exactly the loan and all interest, less the debt that is left; the debt never gets negative and no payment exceeds the agreed one. If the payment exceeds the first interest, the debt is repaid entirely in fewer than 1 + debt / (payment - first interest) periods, the interest of no period exceeds the first, and nothing overflows unless the first sum does. If the payment does not exceed the first interest, the debt never falls.", "quantifier": "every layout, valid precision, mode, build, loan, payment and rate not negative; that it ends: not Nearest with 38 digits on i128", "why_tests_cant": "A loop whose length depends on the numbers, with rounding in every round; termination for all loans.", "anchors": ["src/lib.rs: rmul, cadd, csub, PartialOrd"]}
{"id": "C125", "title": "Newton's iteration for the root", "statement": "x = half_sum(x, a.rdiv(x, Floor), Floor), repeated as long as x gets smaller: for a > 0 and every positive start not a unit or more below the root, it ends within one round per bit of the layout, never overflows, and returns exactly a.rsqrt(Floor). From a lower start it returns the start, or Overflow for the quotient. For a = 0 every start ends in DivisionByZero.", "quantifier": "every layout, valid precision, build, a and start not negative", "why_tests_cant": "A loop of rounded operations compared with an entirely different computation, for all numbers and starts.", "anchors": ["src/lib.rs: rdiv, half_sum, rsqrt, PartialOrd"]}
{"id": "C126", "title": "polynomials by Horner's scheme", "statement": "acc = acc.rmul(x, mode)?.cadd(c)? over the coefficients, the leading one first: for x >= 0 the result with Floor is at most the value of the polynomial and with Ceil at least, whatever the signs of the coefficients. In every mode and build it is within 1 + |x| + ... + |x|^(n-1) units of the last digit, n the degree. For |x| <= 1 it is always computed if the sum of the absolute values of the coefficients is in the range.", "quantifier": "every layout, valid precision, build, degree, coefficients, x and mode; that it is always computed: not Nearest with 38 digits on i128", "why_tests_cant": "Unboundedly many rounded operations; errors of every step are carried through all later ones.", "anchors": ["src/lib.rs: rmul, cadd"]}
{"id": "C127", "title": "binary logarithms by squaring", "statement": "One binary digit per round: y = y.rmul(y, mode)?, and if y >= 2, y = y.rdiv(2, mode)? and the digit is 1, else 0. With Floor, the n digits D of 1 <= x < 2 satisfy D/2^n <= log2(x) < (D+1)/2^n - 2 log2(1 - 10^-P): never too large, and the errors of all squarings together cost a fixed amount that does not grow with n. With Ceil, log2(x) <= (D+1)/2^n and D/2^n <= log2(x) + 2 log2(1 + 10^-P). With Nearest, log2(x) <= (D+1)/2^n - 2 log2(1 - 10^-P/2) and D/2^n <= log2(x) + 2 log2(1 + 10^-P/2). In a type that holds 4 the digits are always computed, in any mode.", "quantifier": "every layout, valid precision (with Floor at least one digit), build, number of rounds and x from 1 to 2 (with Floor below 2)", "why_tests_cant": "Every squaring doubles the relative error made so far; that the digits stay on one side of a transcendental function for all x and any number of rounds is not testable.", "anchors": ["src/lib.rs: rmul, rdiv, cadd, ONE, PartialOrd"]}
{"id": "C128", "title": "the variance", "statement": "The mean by cadd and rdiv by an integer, then the mean of x.csub(mean)?.rmul(same, mode)?: the result is never negative, is 0 for equal numbers, and lies more than -2 and less than 2 + 10^-P units of the last digit from the variance of the numbers, however many there are; with Ceil it is never less than the variance. It is always computed if n M and n (4 M^2 + 10^-P) are in the range, M a bound of the absolute values (with Nearest: not on FixedPoint<i128, U38>, and n no more than half of what the layout counts). The formula in one pass, the mean of the squares less the square of the mean, gives a negative variance for some numbers in every mode.", "quantifier": "every layout, valid precision, mode, build and list of numbers for which the calls return, the number of elements in the layout; one pass: witnesses", "why_tests_cant": "All lists of numbers; 3n + 2 roundings whose errors do not add up.", "anchors": ["src/lib.rs: rmul, rdiv, cadd, csub, ZERO"]}
{"id": "C129", "title": "exponential moving averages", "statement": "avg = avg.cadd(x.csub(avg)?.rmul(alpha, mode)?)? for every new observation, 0 < alpha <= 1: however many observations there are, the result is less than 1/alpha units of the last digit away from the exact moving average, never above it with Floor nor below it with Ceil, and always among the observations and the start. Over a constant observation, Floor from below gets stuck exactly when it is less than 1/alpha units away, while rounding towards the observation (Ceil from below, Floor from above) arrives at it after at most as many rounds as it is units away. No call fails if the differences of observations are in the range.", "quantifier": "every layout, valid precision, build, weight, list of observations, start and mode; that no call fails: not Nearest on FixedPoint<i128, U38>", "why_tests_cant": "Unboundedly many rounded steps, with an error that must stay bounded.", "anchors": ["src/lib.rs: rmul, cadd, csub"]}
{"id": "C130", "title": "format flags have no effect", "statement": "Whatever the fill character, alignment, sign, width and precision in the format string, Display and Debug of a number, and Display of both error types, make exactly one call of the writer, with the text to_string gives, and return what it returns. Hence the text is what std::fmt documents when it is no shorter than the width and no longer than the precision, and never when the width exceeds its length, or the precision is below it and there is no width.", "quantifier": "every layout, precision, build, number, set of flags and writer", "why_tests_cant": "Flags are a product of characters, widths and precisions with all numbers; that none has an effect is not an example.", "anchors": ["src/lib.rs: Debug (648-654), Display (657-663)", "src/errors.rs: Display (31-35, 55-59)"]}
{"id": "C131", "title": "rates in brackets", "statement": "A progressive tax: for each bracket of a width and a rate from 0 to 1, part = rest.min(width), tax = tax.cadd(part.rmul(rate, mode)?)?, rest = rest.csub(part)?. Who has more pays no less, and never keeps less after tax, in spite of the roundings. On an amount that is not negative no call fails, the tax is from 0 to the amount; with Floor it is at most the exact tax, with Ceil at least, and less than one unit of the last digit per bracket off, with Nearest at most half a unit per bracket.", "quantifier": "every layout, valid precision, build, mode, list of brackets, amount (with Nearest not negative); that no call fails: not Nearest on FixedPoint<i128, U38>", "why_tests_cant": "All pairs of amounts and all schedules of brackets.", "anchors": ["src/lib.rs: rmul, cadd, csub, Ord"]}
{"id": "C132", "title": "a checked sum that only fails when it must", "statement": "Adding a list with cadd in the order given can return Overflow although the sum is in the range. A client that keeps the negative numbers apart and, as long as there are both kinds, adds a negative one if the sum so far is positive and one of the others if not, returns exactly the sum of the list whenever that is representable, and Err(Overflow) otherwise; nothing on the way overflows needlessly.", "quantifier": "every layout, precision and list of numbers", "why_tests_cant": "Lists of any length; the claim is that no intermediate sum leaves the range.", "anchors": ["src/lib.rs: cadd (379-381), Ord (197), ZERO"]}
{"id": "C133", "title": "whole quotients, remainders and the greatest common measure", "statement": "The crate has no remainder. a.rdiv(b, mode)?.integral(mode) with Floor or Ceil is exactly a / b rounded to a whole number, although it rounds twice, if a / b is in the range and at least one unit above MIN; with Nearest, or with different modes, it is not. For a >= 0 and b > 0, q computed so with Floor and r = a.csub(b.cmul(q)?)? satisfy a = q b + r and 0 <= r < b. Euclid's algorithm on numbers that are not negative, with the integer rdiv of the raw values, always ends and never fails; its result measures both numbers, and whatever measures both measures it.", "quantifier": "every layout, valid precision, build and pair of numbers; Euclid: every precision; Nearest and mixed modes: witnesses", "why_tests_cant": "Double rounding is wrong only on particular quotients; that Euclid's loop ends for all pairs is not testable.", "anchors": ["src/lib.rs: rdiv, integral, cmul, csub", "src/ops/mod.rs: integer rdiv"]}
{"id": "C134", "title": "time-weighted averages", "statement": "Observations (t_i, v_i) with non-decreasing times; the area under the line through them is accumulated as half_sum(v_i, v_i+1, mode).rmul(t_i+1 - t_i, mode), and the average is the area rdiv the elapsed time T, over n intervals. With Floor it is never above the exact average, less than 3/2 + n/T EPSILON below it and never above a bound of all prices; with Ceil the mirror image; with Nearest and overflow checks within 1 + n/2T EPSILON. Areas of adjoining stretches add up to the last digit, in every mode. If no time has elapsed, and only then, the result is DivisionByZero (not Nearest on FixedPoint<i128, U38>); every other failure with Floor and Ceil is Overflow.", "quantifier": "every layout, valid precision, build, every list of observations", "why_tests_cant": "Lists of any length; the error depends on the number of intervals and the elapsed time.", "anchors": ["src/lib.rs: half_sum, rmul, rdiv, csub, cadd"]}
{"id": "C135", "title": "an amount released over time", "statement": "Of a total >= 0, total.rmul(t, Floor).rdiv(duration, Floor) is released at time t < duration and all of it later. What is released is never more than what is due (total * t / duration, at most the total), less than 1 + 1/duration EPSILON below it, never negative, never falls as time passes or the total grows. Claims of what has been released and not yet claimed, at any number of times that do not decrease, are never negative and add up, to the last digit, to what is released at the last of them - to the total, if that is not before the duration. If total * duration is in range, no claim fails.", "quantifier": "every layout, valid precision, build, all totals, durations > 0 and lists of times >= 0", "why_tests_cant": "Any number of claims at any times; the rounding errors of all claims must cancel.", "anchors": ["src/lib.rs: rmul, rdiv, csub, PartialOrd"]}
{"id": "C136", "title": "buying and selling", "statement": "An account of cash and units; an order spends cash for spend.rdiv(price, Floor) units or gives units for give.rmul(price, Floor) cash, and changes nothing if the account does not cover it. However many orders are executed, buys at no less and sells at no more than a price m > 0 (which may change from order to order) never make the account worth more at m, and no balance becomes negative. If all orders are at the price m, n of them cost at most n * max(1, m) EPSILON. If the range holds all the account is worth, in cash and in units, no order fails.", "quantifier": "every layout, valid precision, build, all accounts >= 0 and lists of orders of amounts >= 0", "why_tests_cant": "Any number of orders; that no order of trades gains by rounding is a statement about all of them.", "anchors": ["src/lib.rs: rmul, rdiv, cadd, csub, PartialOrd"]}
{"id": "C137", "title": "the median", "statement": "A list is sorted by Ord; the median is the middle element of an odd number, half_sum(a, b, mode) of the middle two of an even number. It never fails, in any mode, and there is one unless the list is empty. The element returned has the middle rank (at most k elements are smaller, more than k are not larger), likewise the two averaged, and the result is between these. No more than half of the elements are smaller than the median, no more than half larger; if more than half are in an interval, so is the median, whatever the others are. It does not depend on the order of the list and does not decrease if no element does.", "quantifier": "every layout, precision, mode, build, every list", "why_tests_cant": "Lists of any length and order, outliers of any size, and half_sum near the ends of the range.", "anchors": ["src/lib.rs: half_sum, Ord, PartialOrd"]}
{"id": "C138", "title": "a limit on the rate of requests", "statement": "Tokens flow into a bucket at a rate >= 0: min(tokens + (now - last).rmul(rate, Floor), cap); a request is granted, and its cost taken, iff it costs no more than that. With tokens between 0 and the capacity, times that do not decrease and costs >= 0, the tokens stay between 0 and the capacity; the requests granted cost no more than the tokens at the beginning plus the rate times the time elapsed, exactly; and in any stretch of the requests no more than the capacity plus the rate times the length of the stretch. If less than EPSILON flows in between any two requests, nothing flows in at all. If the times are >= 0 and the capacity plus the rate times the time elapsed is in range, no request fails. With Ceil the limit does not hold.", "quantifier": "every layout, valid precision, build, all capacities, rates and lists of requests", "why_tests_cant": "Any number of requests at any times; an error of one EPSILON per request would break the limit.", "anchors": ["src/lib.rs: rmul, cadd, csub, Ord"]}
{"id": "C139", "title": "rewards in proportion to changing stakes", "statement": "Rewards x >= 0 are accumulated per unit of stake, acc += x.rdiv(total, Floor), and participant i is paid stake.rmul(acc - acc at its last payment, Floor), upon which its stake may change. Whatever comes in and whoever is paid, in any order: the payments and all that could still be paid never exceed the rewards, no payment is negative, and the total remains the sum of the stakes. Each reward raises what a participant can be paid in proportion to its stake, at most by the exact share and at most stake * EPSILON (for all together: less than total * EPSILON) below it; a payment is less than EPSILON below what is due and affects nobody else. A reward is DivisionByZero if nothing is staked; it fails otherwise only if acc + x/total is out of range, a payment only if the exact amount or the new total is.", "quantifier": "every layout, valid precision, build, all states and lists of rewards and payments", "why_tests_cant": "Any number of participants, rewards, payments and changes of stakes in any order.", "anchors": ["src/lib.rs: rmul, rdiv, cadd, csub"]}
{"id": "C140", "title": "prices with and without tax", "statement": "A tax is added, net + net.rmul(rate, Nearest), and taken out again, net = gross.rdiv(1 + rate, Nearest), tax = gross - net. For every rate >= 0 with 2 * (1 + rate) in range: taking the tax out of a price to which it was added returns exactly the net price and exactly the tax that was added. Taking it out of any price succeeds; the two parts add up to the price to the last digit, neither has the other sign, the net price is right up to EPSILON/2 and the tax up to (1 + rate) * EPSILON/2. Adding it to a net price >= 0 gives net plus the rounded tax, or Overflow exactly when that is not representable. The opposite round trip (take out, then add) may change the gross price; neither does the round trip hold for negative rates, nor beyond half of the range, where rdiv with Nearest is wrong (C11).", "quantifier": "every layout, valid precision, build, all prices and rates >= 0 with 2 * (1 + rate) <= MAX", "why_tests_cant": "All pairs of prices and rates; the rounding of the tax and that of the quotient must cancel for each of them.", "anchors": ["src/lib.rs: rmul, rdiv, cadd, csub, ONE"]}
{"id": "C141", "title": "payments in coins", "statement": "Amounts are paid out in multiples of a coin: due = carry + x, paid = due.round_towards_zero_by(coin), and due - paid is carried over. For every list of amounts: each amount is answered by one payment, each payment is a whole number of coins, what is paid and what is carried over add up to the amounts to the last digit, and less than a coin is carried over. If no amount is negative, no payment is; the payments add up to floor(all that is due / coin) coins, however the amounts are split up; and in any stretch of the payments they differ from the amounts by less than one coin. If each amount plus a coin is in range, no payment fails, however large the sum is.", "quantifier": "every layout, precision, all coins > 0 (for the first sentence: not 0), carries and lists of amounts", "why_tests_cant": "Lists of any length; the error of each rounding must be made up for by the next payment.", "anchors": ["src/lib.rs: round_towards_zero_by, cadd, csub"]}
