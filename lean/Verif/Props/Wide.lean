import Verif.SqrtBasic
import Verif.I256Total

/-!
# Properties C36–C38: the 256-bit arithmetic behind `FixedPoint<i128, P>`

`I256.toInt` is the two's-complement reading of the four 64-bit words (a specification function,
see `I256.lean`); all statements compare the code's result with integer arithmetic on it.
-/

namespace Fixnum

open Res

variable {ε : Type}

/-- C36: the product is exact whenever it fits (and neither operand is `MIN`); in particular for
all products of widened `i128` values (`C36_mul_i128`). -/
theorem C36_mul_exact (cfg : Cfg) (x y : I256) (hx : x ≠ I256.min) (hy : y ≠ I256.min)
    (h : |x.toInt * y.toInt| < 2 ^ 255) :
    ∃ r, (I256.mul cfg x y : Res ε I256) = .ok r ∧ r.toInt = x.toInt * y.toInt :=
  I256.mul_spec cfg x y
    (fun e => hx (I256.toInt_inj (by rw [e, I256.min_toInt])))
    (fun e => hy (I256.toInt_inj (by rw [e, I256.min_toInt]))) h

example := C36_mul_exact (ε := Unit) ⟨true, true, true, true⟩ (I256.fromI128 (BitVec.ofInt 128 (2 ^ 120 + 7)))
  (I256.fromI128 (BitVec.ofInt 128 (-2 ^ 100 - 3))) (by decide) (by decide) (by decide)

example : ∃ x y : I256, x ≠ I256.min ∧ y ≠ I256.min ∧ |x.toInt * y.toInt| < 2 ^ 255 ∧
    2 ^ 200 < |x.toInt * y.toInt| :=
  ⟨I256.fromI128 (BitVec.ofInt 128 (2 ^ 120 + 7)), I256.fromI128 (BitVec.ofInt 128 (-2 ^ 100 - 3)),
    by decide, by decide, by decide, by decide⟩

/-- C36 for the operands that the crate multiplies: any two `i128` values. -/
theorem C36_mul_i128 (cfg : Cfg) (a b : BitVec 128) :
    ∃ r, (I256.mul cfg (I256.fromI128 a) (I256.fromI128 b) : Res ε I256) = .ok r ∧
      r.toInt = a.toInt * b.toInt := by
  have ha := toInt_fits a
  have hb := toInt_fits b
  have ha' : |a.toInt| ≤ 2 ^ 127 := by
    unfold Fits iMin iMax at ha; rw [abs_le]; constructor <;> omega
  have hb' : |b.toInt| ≤ 2 ^ 127 := by
    unfold Fits iMin iMax at hb; rw [abs_le]; constructor <;> omega
  have ne : ∀ v : BitVec 128, (I256.fromI128 v).toInt ≠ -2 ^ 255 := by
    intro v
    have hv := toInt_fits v
    rw [I256.fromI128_toInt]
    unfold Fits iMin iMax at hv
    omega
  have h := I256.mul_spec (ε := ε) cfg (I256.fromI128 a) (I256.fromI128 b) (ne a) (ne b) (by
    rw [I256.fromI128_toInt, I256.fromI128_toInt, abs_mul]
    calc |a.toInt| * |b.toInt| ≤ 2 ^ 127 * 2 ^ 127 :=
          mul_le_mul ha' hb' (abs_nonneg _) (by norm_num)
      _ < 2 ^ 255 := by norm_num)
  rwa [I256.fromI128_toInt, I256.fromI128_toInt] at h

example : (I256.mul ⟨true, true, true, true⟩ (I256.fromI128 (-5)) (I256.fromI128 7) : Res Unit I256) =
    .ok (I256.fromI128 (-35)) := by decide +kernel

/-- C36: sums and differences are exact whenever they fit. -/
theorem C36_add_exact (x y : I256) (h1 : -2 ^ 255 ≤ x.toInt + y.toInt)
    (h2 : x.toInt + y.toInt < 2 ^ 255) : (I256.add x y).toInt = x.toInt + y.toInt :=
  I256.add_spec x y h1 h2

example := C36_add_exact ⟨-5, -1, -1, -1⟩ ⟨3, 1, 0, 0⟩ (by decide +kernel) (by decide +kernel)

theorem C36_sub_exact (x y : I256) (h1 : -2 ^ 255 ≤ x.toInt - y.toInt)
    (h2 : x.toInt - y.toInt < 2 ^ 255) : (I256.sub x y).toInt = x.toInt - y.toInt :=
  I256.sub_spec x y h1 h2

example := C36_sub_exact I256.max I256.one (by decide) (by decide)

example : (-2 ^ 255 : Int) ≤ I256.max.toInt + I256.min.toInt ∧
    I256.max.toInt + I256.min.toInt < 2 ^ 255 := by decide

example : (-2 ^ 255 : Int) ≤ I256.max.toInt - I256.one.toInt ∧
    I256.max.toInt - I256.one.toInt < 2 ^ 255 := by decide

/-- C36: negation is exact for every value but `MIN`, and no debug assertion fires. -/
theorem C36_neg_exact (cfg : Cfg) (x : I256) (hx : x ≠ I256.min) :
    ∃ r, (I256.neg cfg x : Res ε I256) = .ok r ∧ r.toInt = -x.toInt :=
  I256.neg_spec cfg x (fun e => hx (I256.toInt_inj (by rw [e, I256.min_toInt])))

example := C36_neg_exact (ε := Unit) ⟨true, true, true, true⟩ I256.max (by decide)

example : I256.max ≠ I256.min := by decide

/-- C36: comparison is the comparison of the numbers. -/
theorem C36_cmp_exact (x y : I256) : I256.cmp x y = compare x.toInt y.toInt := I256.cmp_spec x y

example : I256.cmp I256.min I256.one = .lt := by decide

/-- C36: the representation is faithful: different words denote different numbers, and the
numbers are those of 256-bit two's complement. -/
theorem C36_faithful (x y : I256) (h : x.toInt = y.toInt) : x = y := I256.toInt_inj h

example := C36_faithful (I256.fromI128 (-5)) ⟨-5, -1, -1, -1⟩ (by decide +kernel)

theorem C36_range (x : I256) : -2 ^ 255 ≤ x.toInt ∧ x.toInt < 2 ^ 255 := I256.toInt_bounds x

/-- C36, the outcome for all operands, `MIN` included.  A product of `2^256` or more panics in every
build.  With debug assertions the operand `MIN` and the product `-2^255` panic (`-MIN` is asserted
away), although the latter fits.  Otherwise the result is the product modulo `2^256`. -/
theorem C36_mul_determined (cfg : Cfg) (x y : I256) :
    ((2 ^ 256 ≤ |x.toInt * y.toInt| ∨ (cfg.debugAssertions = true ∧
        (x = I256.min ∨ y = I256.min ∨ x.toInt * y.toInt = -2 ^ 255))) →
      (I256.mul cfg x y : Res ε I256) = .panic) ∧
    (¬ (2 ^ 256 ≤ |x.toInt * y.toInt| ∨ (cfg.debugAssertions = true ∧
        (x = I256.min ∨ y = I256.min ∨ x.toInt * y.toInt = -2 ^ 255))) →
      ∃ r, (I256.mul cfg x y : Res ε I256) = .ok r ∧
        (2 : Int) ^ 256 ∣ r.toInt - x.toInt * y.toInt) :=
  I256.mul_total cfg x y

example : (I256.mul ⟨true, true, true, true⟩ I256.min (I256.fromI128 1) : Res Unit I256) = .panic ∧
    (I256.mul ⟨false, false, true, true⟩ I256.min (I256.fromI128 1) : Res Unit I256) = .ok I256.min ∧
    (I256.mul ⟨false, false, true, true⟩ I256.min I256.min : Res Unit I256) = .panic := by decide +kernel

/-- C36: sums, differences and negations of all operands, modulo `2^256`. -/
theorem C36_add_sub_determined (x y : I256) :
    (2 : Int) ^ 256 ∣ (I256.add x y).toInt - (x.toInt + y.toInt) ∧
    (2 : Int) ^ 256 ∣ (I256.sub x y).toInt - (x.toInt - y.toInt) :=
  ⟨I256.add_dvd x y, I256.sub_dvd x y⟩

example : I256.add (I256.fromI128 (-5)) (I256.fromI128 7) = I256.fromI128 2 ∧
    I256.sub (I256.fromI128 (-5)) (I256.fromI128 7) = I256.fromI128 (-12) := by decide +kernel

theorem C36_neg_min (cfg : Cfg) :
    (I256.neg cfg I256.min : Res ε I256) =
      if cfg.debugAssertions then .panic else .ok I256.min :=
  I256.neg_min cfg

example : (I256.mul ⟨true, true, true, true⟩ ⟨⟨0, 0, 0, 2 ^ 62⟩⟩ (I256.fromI128 (-2)) : Res Unit I256) =
      .panic ∧
    (I256.mul ⟨false, false, true, true⟩ ⟨⟨0, 0, 0, 2 ^ 62⟩⟩ (I256.fromI128 (-2)) : Res Unit I256) =
      .ok I256.min ∧
    (⟨⟨0, 0, 0, 2 ^ 62⟩⟩ : I256).toInt * (I256.fromI128 (-2)).toInt = -2 ^ 255 := by
  decide +kernel

/-- C37: unsigned 256-bit division with remainder is exact for every dividend and every non-zero
divisor, in every build profile; it terminates and does not panic. -/
theorem C37_divMod_exact (cfg : Cfg) (x y : U256) (hy : y.toNat ≠ 0) :
    ∃ q r, (U256.divMod cfg x y : Res ε (U256 × U256)) = .ok (q, r) ∧
      q.toNat = x.toNat / y.toNat ∧ r.toNat = x.toNat % y.toNat :=
  U256.divMod_spec cfg x y hy

example := C37_divMod_exact (ε := Unit) ⟨true, true, true, true⟩ ⟨1, 2, 3, 4⟩ ⟨5, 6, 0, 0⟩ (by decide)

example : (⟨5, 0, 0, 1⟩ : U256).toNat ≠ 0 := by decide

/-- C37: signed division is the truncated quotient (operands other than `MIN`, whose negation
does not exist). -/
theorem C37_div_exact (cfg : Cfg) (x y : I256) (hx : x ≠ I256.min) (hy : y ≠ I256.min)
    (h0 : y.toInt ≠ 0) :
    ∃ r, (I256.div cfg x y : Res ε I256) = .ok r ∧ r.toInt = x.toInt.tdiv y.toInt :=
  I256.div_spec cfg x y
    (fun e => hx (I256.toInt_inj (by rw [e, I256.min_toInt])))
    (fun e => hy (I256.toInt_inj (by rw [e, I256.min_toInt]))) h0

example := C37_div_exact (ε := Unit) ⟨true, true, true, true⟩ I256.max
  (I256.fromI128 (BitVec.ofInt 128 (-2 ^ 100 - 3))) (by decide) (by decide) (by decide)

example : I256.max ≠ I256.min ∧ I256.u128Max ≠ I256.min ∧ I256.u128Max.toInt ≠ 0 := by decide

/-- C37, the outcome for all dividends and non-zero divisors: with debug assertions the operand
`MIN` panics; otherwise the result is the truncated quotient modulo `2^256`, so it is exact except for
`MIN / -1`. -/
theorem C37_div_determined (cfg : Cfg) (x y : I256) (h0 : y.toInt ≠ 0) :
    (cfg.debugAssertions = true ∧ (x = I256.min ∨ y = I256.min) →
      (I256.div cfg x y : Res ε I256) = .panic) ∧
    (¬ (cfg.debugAssertions = true ∧ (x = I256.min ∨ y = I256.min)) →
      ∃ r, (I256.div cfg x y : Res ε I256) = .ok r ∧
        (2 : Int) ^ 256 ∣ r.toInt - x.toInt.tdiv y.toInt) :=
  I256.div_total cfg x y h0

example := C37_div_determined (ε := Unit) ⟨true, true, true, true⟩ I256.min
  (I256.fromI128 (BitVec.ofInt 128 (-2 ^ 100 - 3))) (by decide)

example : (I256.div ⟨false, false, true, true⟩ I256.min (I256.fromI128 2) : Res Unit I256) =
      .ok ⟨⟨0, 0, 0, 2 ^ 63 + 2 ^ 62⟩⟩ ∧
    (⟨⟨0, 0, 0, 2 ^ 63 + 2 ^ 62⟩⟩ : I256).toInt = -2 ^ 254 ∧
    (I256.div ⟨true, true, true, true⟩ I256.min (I256.fromI128 2) : Res Unit I256) = .panic := by
  decide +kernel

/-- C37: division by zero is a panic (never a wrong value). -/
theorem C37_div_zero (cfg : Cfg) (x : U256) :
    (U256.divMod cfg x U256.zero : Res ε (U256 × U256)) = .panic := by
  unfold U256.divMod
  rw [show U256.zero.bits = 0 by decide]
  simp [rustAssert]

example : (U256.divMod ⟨false, false, true, true⟩ (U256.ofU128 7) U256.zero : Res Unit (U256 × U256)) = .panic :=
  C37_div_zero _ _

/-- C37: the unsigned square root of a 256-bit value is the integer square root. -/
theorem C37_sqrt_exact (cfg : Cfg) (x : I256) (h : 0 ≤ x.toInt) :
    ∃ r, (I256.sqrt cfg x : Res ε I256) = .ok r ∧ 0 ≤ r.toInt ∧
      r.toInt * r.toInt ≤ x.toInt ∧ x.toInt < (r.toInt + 1) * (r.toInt + 1) := by
  obtain ⟨r, hr, er⟩ := I256.sqrt_spec (ε := ε) cfg x h
  refine ⟨r, hr, by rw [er]; exact Int.natCast_nonneg _, ?_, ?_⟩
  · have := Nat.sqrt_le x.toInt.toNat
    rw [er]
    zify at this
    rwa [Int.toNat_of_nonneg h] at this
  · have := Nat.lt_succ_sqrt x.toInt.toNat
    rw [er]
    zify at this
    rwa [Int.toNat_of_nonneg h] at this

example := C37_sqrt_exact (ε := Unit) ⟨true, true, true, true⟩ I256.max (by decide)

example : 0 ≤ I256.max.toInt := by decide

/-- C38: widening an `i128` preserves the number, and narrowing gives it back. -/
theorem C38_i128_roundtrip (a : BitVec 128) :
    (I256.fromI128 a).toInt = a.toInt ∧ I256.tryToI128 (I256.fromI128 a) = .ok a := by
  refine ⟨I256.fromI128_toInt a, ?_⟩
  rw [I256.tryToI128_ok _ (by rw [I256.fromI128_toInt]; exact toInt_fits a), I256.fromI128_toInt,
    ofInt_toInt']

example : I256.tryToI128 (I256.fromI128 (-7)) = .ok (-7) := by decide +kernel

/-- C38: narrowing succeeds exactly on the `i128` range and preserves the number. -/
theorem C38_i128_narrow (x : I256) :
    (-2 ^ 127 ≤ x.toInt ∧ x.toInt < 2 ^ 127 →
      ∃ v, I256.tryToI128 x = .ok v ∧ v.toInt = x.toInt) ∧
    (¬ (-2 ^ 127 ≤ x.toInt ∧ x.toInt < 2 ^ 127) → I256.tryToI128 x = .err .overflow) := by
  constructor
  · intro h
    have hf : Fits 128 x.toInt := by unfold Fits iMin iMax; omega
    exact ⟨_, I256.tryToI128_ok x hf, toInt_ofInt_of_fits (by norm_num) hf⟩
  · intro h
    exact I256.tryToI128_err x (by unfold Fits iMin iMax; omega)

example : ∃ x : I256, ¬ (-2 ^ 127 ≤ x.toInt ∧ x.toInt < 2 ^ 127) := ⟨I256.u128Max, by decide⟩

/-- C38: the same for `u128`. -/
theorem C38_u128_roundtrip (a : BitVec 128) :
    (I256.ofU128 a).toInt = a.toNat ∧ I256.tryToU128 (I256.ofU128 a) = .ok a := by
  refine ⟨I256.ofU128_toInt a, ?_⟩
  have hl := a.isLt
  rw [I256.tryToU128_ok _ (by rw [I256.ofU128_toInt]; omega) (by rw [I256.ofU128_toInt]; omega),
    I256.ofU128_toInt]
  simp

example : I256.tryToU128 (I256.ofU128 (2 ^ 127 + 5)) = .ok (2 ^ 127 + 5) := by decide +kernel

theorem C38_u128_narrow (x : I256) :
    (0 ≤ x.toInt ∧ x.toInt < 2 ^ 128 →
      ∃ v, I256.tryToU128 x = .ok v ∧ (v.toNat : Int) = x.toInt) ∧
    (¬ (0 ≤ x.toInt ∧ x.toInt < 2 ^ 128) → I256.tryToU128 x = .err ⟨"too big integer"⟩) := by
  constructor
  · intro h
    refine ⟨_, I256.tryToU128_ok x h.1 h.2, ?_⟩
    rw [BitVec.toNat_ofInt]
    have : x.toInt % ((2 ^ 128 : Nat) : Int) = x.toInt := Int.emod_eq_of_lt h.1 (by
      have := h.2; push_cast; omega)
    rw [this]; omega
  · intro h
    exact I256.tryToU128_err x (by omega)

example : ∃ x : I256, 0 ≤ x.toInt ∧ x.toInt < 2 ^ 128 ∧ ¬ x.toInt < 2 ^ 127 :=
  ⟨I256.u128Max, by decide⟩

/-- C38: the same for the conversion of the unsigned wide type used by the square root. -/
theorem C38_u256_narrow (x : U256) :
    (x.toNat < 2 ^ 128 → ∃ v, U256.tryToU128 x = some v ∧ v.toNat = x.toNat) ∧
    (¬ x.toNat < 2 ^ 128 → U256.tryToU128 x = none) :=
  ⟨U256.tryToU128_some x, U256.tryToU128_none x⟩

example : U256.tryToU128 ⟨1, 2, 0, 0⟩ = some (2 ^ 65 + 1) ∧ U256.tryToU128 ⟨1, 2, 3, 0⟩ = none := by
  decide +kernel

/-- C38: widening to it loses nothing. -/
theorem C38_u256_roundtrip (a : BitVec 128) :
    (U256.ofU128 a).toNat = a.toNat ∧ U256.tryToU128 (U256.ofU128 a) = some a := by
  refine ⟨U256.ofU128_toNat a, ?_⟩
  obtain ⟨v, h1, h2⟩ := U256.tryToU128_some (U256.ofU128 a) (by
    rw [U256.ofU128_toNat]; exact a.isLt)
  rw [h1, BitVec.eq_of_toNat_eq (h2.trans (U256.ofU128_toNat a))]

example : U256.tryToU128 ⟨-1, -1, 0, 0⟩ = some (-1) ∧ U256.tryToU128 ⟨0, 0, 1, 0⟩ = none := by
  decide +kernel

end Fixnum
