import Verif.PowerBasic
import Verif.Props.Integral
import Mathlib.Algebra.Order.Field.Power

/-!
# Properties C21, C24–C26: powers of ten and decimal pairs
-/

namespace Fixnum

open Res Spec

variable {L : Layout} {P : Nat} {ε : Type}

/-! ## C21 -/

/-- `r` is the next power of ten of `q`: the least number `10^(k-P)`, `k ≥ 0`, that is `≥ q`. -/
def IsNextPowerOfTen (P : Nat) (q r : ℚ) : Prop :=
  (∃ k : Nat, r = 10 ^ k / 10 ^ P) ∧ q ≤ r ∧ ∀ k : Nat, q ≤ 10 ^ k / 10 ^ P → r ≤ 10 ^ k / 10 ^ P

theorem nextExp_of_isNext {x : Int} {r : ℚ} (h : IsNextPowerOfTen P ((x : ℚ) / 10 ^ P) r) :
    ∃ k, NextExp x k ∧ r = ((10 ^ k : Int) : ℚ) / 10 ^ P := by
  have hp := ten_pow_pos P
  obtain ⟨⟨k, e⟩, h1, h2⟩ := h
  refine ⟨k, ⟨?_, fun j hj => ?_⟩, by rw [e]; push_cast; rfl⟩
  · rw [e, div_le_div_iff_of_pos_right hp] at h1; exact_mod_cast h1
  · have h3 := h2 j (by rw [div_le_div_iff_of_pos_right hp]; exact_mod_cast hj)
    rw [e, div_le_div_iff_of_pos_right hp] at h3
    have h4 : (10 : Int) ^ k ≤ 10 ^ j := by exact_mod_cast h3
    exact ten_pow_le_iff.1 h4

theorem ten_pow_ne_half (L : Layout) (k : Nat) : (10 : Int) ^ k ≠ half L := by
  rcases k with _ | k
  · have := half_pos L; rw [pow_zero]; omega
  · intro h
    have h1 : (10 : Int) ^ (k + 1) = 5 * (2 * 10 ^ k) := by ring
    have h2 : half L % 5 ≠ 0 := by cases L <;> decide
    apply h2
    rw [← h, h1, Int.mul_emod_right]

theorem fits_ten_pow (L : Layout) (k : Nat) : Fits L.bits (10 ^ k) ↔ (10 : Int) ^ k ≤ rawMax L := by
  have h1 : (0 : Int) < 10 ^ k := by positivity
  have := half_pos L
  rw [fits_half, rawMax_half]
  omega

theorem fits_neg_ten_pow (L : Layout) (k : Nat) :
    Fits L.bits (-10 ^ k) ↔ (10 : Int) ^ k ≤ rawMax L := by
  have h1 : (0 : Int) < 10 ^ k := by positivity
  have := half_pos L
  have h2 := ten_pow_ne_half L k
  rw [fits_half, rawMax_half]
  omega

/-- The next power of ten exists and is unique, so the theorems below determine the result. -/
theorem C21_next_exists (P : Nat) (q : ℚ) : ∃! r, IsNextPowerOfTen P q r := by
  have hp := ten_pow_pos P
  have hex : ∃ k : Nat, q ≤ 10 ^ k / 10 ^ P := by
    refine ⟨⌈q * 10 ^ P⌉.toNat, ?_⟩
    rw [le_div_iff₀ hp]
    have h1 : ⌈q * 10 ^ P⌉.toNat < 10 ^ ⌈q * 10 ^ P⌉.toNat := Nat.lt_pow_self (by norm_num)
    have h2 : (⌈q * 10 ^ P⌉.toNat : ℚ) < 10 ^ ⌈q * 10 ^ P⌉.toNat := by exact_mod_cast h1
    have h3 : ((⌈q * 10 ^ P⌉ : Int) : ℚ) ≤ (⌈q * 10 ^ P⌉.toNat : ℚ) := by
      exact_mod_cast Int.self_le_toNat _
    linarith [Int.le_ceil (q * 10 ^ P)]
  classical
  refine ⟨10 ^ Nat.find hex / 10 ^ P, ⟨⟨_, rfl⟩, Nat.find_spec hex, fun k hk => ?_⟩, ?_⟩
  · rw [div_le_div_iff_of_pos_right hp]
    exact pow_le_pow_right₀ (by norm_num) (Nat.find_min' hex hk)
  · rintro s ⟨⟨j, e⟩, h1, h2⟩
    apply le_antisymm
    · exact h2 _ (Nat.find_spec hex)
    · rw [e] at h1 ⊢
      rw [div_le_div_iff_of_pos_right hp]
      exact pow_le_pow_right₀ (by norm_num) (Nat.find_min' hex h1)

theorem next_1001 : IsNextPowerOfTen 9 (1001 / 10 ^ 9) (10 ^ 4 / 10 ^ 9) := by
  refine ⟨⟨4, rfl⟩, by norm_num, fun k hk => ?_⟩
  rw [div_le_div_iff_of_pos_right (by norm_num)] at hk ⊢
  have : 4 ≤ k := by
    by_contra h
    have h1 : (10 : ℚ) ^ k ≤ 10 ^ 3 := pow_le_pow_right₀ (by norm_num) (by omega)
    norm_num at h1
    linarith
  exact pow_le_pow_right₀ (by norm_num) this

/-- C21, non-negative argument: the next power of ten, or `Overflow` exactly when it is not
representable. Every layout, every precision (also those with no representable one). -/
theorem C21_next_power_nonneg (a : FP L P) (ha : 0 ≤ value a) (r : ℚ)
    (hr : IsNextPowerOfTen P (value a) r) :
    ExactOr ArithErr.overflow (FP.nextPowerOfTen a) r := by
  have h0 : 0 ≤ a.inner.toInt := by
    unfold value at ha
    rw [le_div_iff₀ (ten_pow_pos P), zero_mul] at ha
    exact_mod_cast ha
  obtain ⟨k, hk, e⟩ := nextExp_of_isNext hr
  unfold FP.nextPowerOfTen
  rw [if_neg (by omega), nextPowerOfTenNonneg_spec a h0 hk, e]
  apply exactOr_of
  · intro hf; rw [if_pos ((fits_ten_pow L k).1 hf)]
  · intro hf; rw [if_neg (fun h => hf ((fits_ten_pow L k).2 h))]

example := C21_next_power_nonneg (⟨1001⟩ : FP .i64 9)
  (by rw [value_eq _ 1001 (by decide)]; norm_num) (10 ^ 4 / 10 ^ 9)
  (by rw [value_eq _ 1001 (by decide), Int.cast_ofNat]; exact next_1001)

/-- C21, negative argument: minus the next power of ten of the absolute value, that is the largest
`-10^(k-P)` not above `a`; `Overflow` exactly when that is not representable (including `MIN`). -/
theorem C21_next_power_neg (a : FP L P) (ha : value a < 0) (r : ℚ)
    (hr : IsNextPowerOfTen P (-value a) r) :
    ExactOr ArithErr.overflow (FP.nextPowerOfTen a) (-r) := by
  have hw := bits_pos L
  have h0 : a.inner.toInt < 0 := by
    unfold value at ha
    rw [div_lt_iff₀ (ten_pow_pos P), zero_mul] at ha
    exact_mod_cast ha
  have hr' : IsNextPowerOfTen P (((-a.inner.toInt : Int) : ℚ) / 10 ^ P) r := by
    have : ((-a.inner.toInt : Int) : ℚ) / 10 ^ P = -value a := by unfold value; push_cast; ring
    rw [this]; exact hr
  obtain ⟨k, hk, e⟩ := nextExp_of_isNext hr'
  have e' : -r = ((-10 ^ k : Int) : ℚ) / 10 ^ P := by rw [e]; push_cast; ring
  rw [e']
  have hpos : (0 : Int) < 10 ^ k := by positivity
  have fa := (fits_half L _).1 (toInt_fits a.inner)
  have hcneg : ∀ z : BitVec L.bits, Fits L.bits (-z.toInt) →
      (FP.cneg (⟨z⟩ : FP L P)) = .ok ⟨BitVec.ofInt _ (-z.toInt)⟩ := by
    intro z hz
    unfold FP.cneg SInt.checkedNeg SInt.checked
    rw [if_pos hz]; rfl
  unfold FP.nextPowerOfTen
  rw [if_pos h0]
  by_cases hm : Fits L.bits (-a.inner.toInt)
  · have h1 := hcneg a.inner hm
    have h2 : (⟨a.inner⟩ : FP L P) = a := rfl
    rw [h2] at h1
    rw [h1, ok_bind, nextPowerOfTenNonneg_spec _ (k := k)
      (by show 0 ≤ (BitVec.ofInt L.bits (-a.inner.toInt)).toInt
          rw [toInt_ofInt_of_fits hw hm]; omega)
      (by show NextExp (BitVec.ofInt L.bits (-a.inner.toInt)).toInt k
          rw [toInt_ofInt_of_fits hw hm]; exact hk)]
    by_cases hf : (10 : Int) ^ k ≤ rawMax L
    · rw [if_pos hf, ok_bind]
      have hf1 := (fits_ten_pow L k).2 hf
      have hf2 := (fits_neg_ten_pow L k).2 hf
      have h3 := hcneg (BitVec.ofInt L.bits (10 ^ k))
      rw [toInt_ofInt_of_fits hw hf1] at h3
      rw [h3 hf2]
      exact exactOr_of (fun _ => rfl) (fun h => absurd hf2 h)
    · rw [if_neg hf, err_bind]
      exact exactOr_of (fun h => absurd ((fits_neg_ten_pow L k).1 h) hf) (fun _ => rfl)
  · -- `MIN`
    have h1 : FP.cneg a = .err .overflow := by
      unfold FP.cneg SInt.checkedNeg SInt.checked
      rw [if_neg hm]; rfl
    rw [h1, err_bind]
    refine exactOr_of (fun h => absurd ((fits_neg_ten_pow L k).1 h) ?_) (fun _ => rfl)
    have := hk.1
    rw [fits_half] at hm
    rw [rawMax_half]
    omega

example := C21_next_power_neg (⟨-1001⟩ : FP .i64 9)
  (by rw [value_eq _ (-1001) (by decide)]; norm_num) (10 ^ 4 / 10 ^ 9)
  (by rw [value_eq _ (-1001) (by decide)]
      have : -(((-1001 : Int) : ℚ) / 10 ^ 9) = 1001 / 10 ^ 9 := by norm_num
      rw [this]; exact next_1001)

example : FP.nextPowerOfTen (⟨0⟩ : FP .i64 9) = .ok ⟨1⟩ ∧
    FP.nextPowerOfTen (⟨1000⟩ : FP .i64 9) = .ok ⟨1000⟩ ∧
    FP.nextPowerOfTen (⟨1001⟩ : FP .i64 9) = .ok ⟨10000⟩ ∧
    FP.nextPowerOfTen (⟨-1001⟩ : FP .i64 9) = .ok ⟨-10000⟩ ∧
    FP.nextPowerOfTen (⟨1000000000000000001⟩ : FP .i64 9) = .err .overflow ∧
    FP.nextPowerOfTen (FP.min : FP .i64 9) = .err .overflow := by decide +kernel
example : 0 ≤ value (⟨1001⟩ : FP .i64 9) ∧ value (⟨-1001⟩ : FP .i64 9) < 0 := by
  rw [value_eq _ 1001 (by decide), value_eq _ (-1001) (by decide)]; norm_num

/-! ## C24 -/

theorem zpow_value (e : Int) (P : Nat) (he : -(P : Int) ≤ e) :
    (10 : ℚ) ^ e = 10 ^ (e + P).toNat / 10 ^ P := by
  rw [eq_div_iff (ten_pow_ne P), ← zpow_natCast, ← zpow_natCast, ← zpow_add₀ (by norm_num)]
  congr 1
  omega

/-- C24: an exponent outside `[-P, 10]` is rejected. -/
theorem C24_from_decimal_exponent (cfg : Cfg) (m : BitVec L.bits) (e : Int)
    (he : e < -(P : Int) ∨ 10 < e) :
    (FP.fromDecimal cfg m e : Res ConvErr (FP L P)) = .err ⟨"unsupported exponent"⟩ := by
  unfold FP.fromDecimal
  rw [if_pos he]

example := C24_from_decimal_exponent (L := .i64) (P := 9) debugCfg 5 (-10) (by decide)

/-- C24: otherwise the result is exactly `m · 10^e`, or the error "too big mantissa" exactly when
that is not representable.  Missing: exponents for which the multiplier `10^(e+P)` itself exceeds
the layout; the claim is false there, see `C24_from_decimal_false`. -/
theorem C24_from_decimal_partial (cfg : Cfg) (m : BitVec L.bits) (e : Int)
    (he : -(P : Int) ≤ e ∧ e ≤ 10) (hp : (10 : Int) ^ (e + P).toNat ≤ rawMax L) :
    ExactOr (ConvErr.mk "too big mantissa") (FP.fromDecimal cfg m e : Res ConvErr (FP L P))
      ((m.toInt : ℚ) * 10 ^ e) := by
  have e1 : (m.toInt : ℚ) * 10 ^ e = ((m.toInt * 10 ^ (e + P).toNat : Int) : ℚ) / 10 ^ P := by
    rw [zpow_value e P he.1]; push_cast; ring
  rw [e1, fromDecimal_spec cfg m e he hp]
  apply exactOr_of
  · intro h; rw [if_pos h]
  · intro h; rw [if_neg h]

example := C24_from_decimal_partial (L := .i64) (P := 9) debugCfg 5 3 (by decide) (by decide)

/-- C24 for non-positive exponents and every valid type: no exception. -/
theorem C24_from_decimal_nonpos {cfg : Cfg} (hv : Valid cfg L P) (m : BitVec L.bits) (e : Int)
    (he : -(P : Int) ≤ e ∧ e ≤ 0) :
    ExactOr (ConvErr.mk "too big mantissa") (FP.fromDecimal cfg m e : Res ConvErr (FP L P))
      ((m.toInt : ℚ) * 10 ^ e) := by
  apply C24_from_decimal_partial cfg m e (by omega)
  have h1 : (10 : Int) ^ (e + P).toNat ≤ 10 ^ P := ten_pow_le_iff.2 (by omega)
  have := hv.1
  omega

example := C24_from_decimal_nonpos (L := .i64) (P := 9) (cfg := debugCfg) (by decide) 12345 (-4) (by decide)

/-- C24: outside the condition a build with overflow checks panics, whatever the mantissa. -/
theorem C24_from_decimal_panics (cfg : Cfg) (hc : cfg.overflowChecks = true) (m : BitVec L.bits)
    (e : Int) (he : -(P : Int) ≤ e ∧ e ≤ 10) (hp : ¬ (10 : Int) ^ (e + P).toNat ≤ rawMax L) :
    (FP.fromDecimal cfg m e : Res ConvErr (FP L P)) = .panic := by
  have hw := bits_pos L
  have h10 : (BitVec.ofInt L.bits 10).toInt = 10 := by
    apply toInt_ofInt_of_fits hw
    have := half_pos L; rw [fits_half]; omega
  unfold FP.fromDecimal
  rw [if_neg (by omega)]
  unfold SInt.pow
  rw [h10, SInt.arith_panic cfg (fun h => hp ((fits_ten_pow L _).1 h)) hc, fault_bind]

example := C24_from_decimal_panics (L := .i64) (P := 9) debugCfg (by decide) 1 10 (by decide) (by decide)

/-- C24, outside the condition without overflow checks: the multiplier is `10^(e+P)` wrapped around
to the layout (`bmod`), and the result is exact for that multiplier. -/
theorem C24_from_decimal_wrapped (cfg : Cfg) (hc : cfg.overflowChecks = false) (m : BitVec L.bits)
    (e : Int) (he : -(P : Int) ≤ e ∧ e ≤ 10) :
    ExactOr (ConvErr.mk "too big mantissa") (FP.fromDecimal cfg m e : Res ConvErr (FP L P))
      (((m.toInt * ((10 : Int) ^ (e + P).toNat).bmod (2 ^ L.bits) : Int) : ℚ) / 10 ^ P) := by
  have hw := bits_pos L
  have h10 : (BitVec.ofInt L.bits 10).toInt = 10 := by
    apply toInt_ofInt_of_fits hw
    have := half_pos L; rw [fits_half]; omega
  unfold FP.fromDecimal
  rw [if_neg (by omega)]
  unfold SInt.pow
  rw [h10, SInt.arith_wrap cfg hc, ok_bind]
  unfold SInt.checkedMul SInt.checked
  rw [BitVec.toInt_ofInt]
  apply exactOr_of
  · intro h; rw [if_pos h, ofOption_some, ok_bind]; rfl
  · intro h; rw [if_neg h, ofOption_none, err_bind]

example := C24_from_decimal_wrapped (L := .i64) (P := 9) releaseCfg (by decide) 1 10 (by decide)

/-- C24 is false: `FixedPoint::<i64, U9>::from_decimal(0, 10)` panics with overflow checks, and
without them `from_decimal(1, 10)` returns a wrong number instead of an error. -/
theorem C24_from_decimal_false :
    (FP.fromDecimal debugCfg 0 10 : Res ConvErr (FP .i64 9)) = .panic ∧
    (FP.fromDecimal releaseCfg 1 10 : Res ConvErr (FP .i64 9)) = .ok ⟨-8446744073709551616⟩ ∧
    value (⟨-8446744073709551616⟩ : FP .i64 9) ≠ 1 * 10 ^ (10 : Int) := by
  refine ⟨by decide +kernel, by decide +kernel, ?_⟩
  rw [value_eq _ (-8446744073709551616) (by decide +kernel)]
  norm_num

example : ((10 : Int) ^ ((10 : Int) + (9 : Nat)).toNat).bmod (2 ^ Layout.i64.bits) =
    -8446744073709551616 := by decide +kernel
example : -((9 : Nat) : Int) ≤ 3 ∧ (3 : Int) ≤ 10 ∧ (10 : Int) ^ (3 + ((9 : Nat) : Int)).toNat ≤ rawMax .i64 := by
  decide
example : (FP.fromDecimal debugCfg 5 3 : Res ConvErr (FP .i64 9)) = .ok ⟨5000000000000⟩ ∧
    (FP.fromDecimal debugCfg (-5) (-9) : Res ConvErr (FP .i64 9)) = .ok ⟨-5⟩ ∧
    (FP.fromDecimal debugCfg 10000000 3 : Res ConvErr (FP .i64 9)) = .err ⟨"too big mantissa"⟩ ∧
    (FP.fromDecimal debugCfg 1 11 : Res ConvErr (FP .i64 9)) = .err ⟨"unsupported exponent"⟩ := by
  decide +kernel

/-! ## C25, C26 -/

theorem toDecimalLoop_spec (maxExp : Int) : ∀ (fuel : Nat) (m : BitVec L.bits) (e : Int),
    m.toInt ≠ 0 → |m.toInt| < 10 ^ fuel → e ≤ maxExp →
    ∃ m' e', (FP.toDecimalLoop maxExp fuel m e : Res ε _) = .ok (m', e') ∧ e ≤ e' ∧ e' ≤ maxExp ∧
      m.toInt = m'.toInt * 10 ^ (e' - e).toNat ∧ (e' < maxExp → ¬ (10 : Int) ∣ m'.toInt) ∧
      m'.toInt ≠ 0
  | 0, m, e, h0, h1, _ => by
    exfalso
    have := abs_pos.2 h0
    rw [pow_zero] at h1
    omega
  | fuel + 1, m, e, h0, h1, h2 => by
    have hw := bits_pos L
    have h10 : (BitVec.ofInt L.bits 10).toInt = 10 := by
      apply toInt_ofInt_of_fits hw
      have := half_pos L; rw [fits_half]; omega
    unfold FP.toDecimalLoop
    by_cases hlt : e < maxExp
    · have hfq := tdiv_fits (by have := bits_gt L; omega) m (BitVec.ofInt L.bits 10)
        (by rw [h10]; omega)
      rw [h10] at hfq
      have hfr : Fits L.bits (m.toInt.tmod 10) := by
        have := sub_tdiv_fits (w := L.bits) (a := m.toInt) (toInt_fits (BitVec.ofInt L.bits 10))
          (by rw [h10]; norm_num)
        rwa [h10] at this
      rw [if_pos hlt]
      unfold SInt.rem SInt.div
      rw [h10, if_neg (by norm_num), if_pos hfq, ok_bind, toInt_ofInt_of_fits hw hfr]
      by_cases hr : m.toInt.tmod 10 = 0
      · rw [if_pos hr, if_neg (by norm_num), if_pos hfq, ok_bind]
        have hq : m.toInt = m.toInt.tdiv 10 * 10 := by
          have := loss_eq m.toInt 10; omega
        have hq' : (BitVec.ofInt L.bits (m.toInt.tdiv 10)).toInt = m.toInt.tdiv 10 :=
          toInt_ofInt_of_fits hw hfq
        have hab : |m.toInt| = |m.toInt.tdiv 10| * 10 := by
          conv_lhs => rw [hq, abs_mul]
          rfl
        have hp2 : (10 : Int) ^ (fuel + 1) = 10 * 10 ^ fuel := by ring
        obtain ⟨m', e', i1, i2, i3, i4, i5, i6⟩ := toDecimalLoop_spec maxExp fuel
          (BitVec.ofInt L.bits (m.toInt.tdiv 10)) (e + 1)
          (by rw [hq']; intro h; rw [h] at hq; omega)
          (by rw [hq']; have := abs_nonneg (m.toInt.tdiv 10); omega) (by omega)
        refine ⟨m', e', i1, by omega, i3, ?_, i5, i6⟩
        rw [hq'] at i4
        have he : (e' - e).toNat = (e' - (e + 1)).toNat + 1 := by omega
        rw [he, pow_succ, ← mul_assoc, ← i4]
        exact hq
      · rw [if_neg hr]
        refine ⟨m, e, rfl, le_rfl, h2, by simp, fun _ hd => hr (Int.tmod_eq_zero_of_dvd hd), h0⟩
    · rw [if_neg hlt]
      exact ⟨m, e, rfl, le_rfl, h2, by simp, fun h => absurd h hlt, h0⟩

/-- C25: `to_decimal` terminates without panic whenever `max_exponent ≥ -P`; the pair denotes the
value exactly, its exponent is in `[-P, max_exponent]`, and the mantissa has no trailing zero that
could still be moved to the exponent. -/
theorem C25_to_decimal (x : FP L P) (maxExp : Int) (h : -(P : Int) ≤ maxExp) :
    ∃ m e, (FP.toDecimal x maxExp : Res ε _) = .ok (m, e) ∧ -(P : Int) ≤ e ∧ e ≤ maxExp ∧
      (m.toInt : ℚ) * 10 ^ e = value x ∧
      (value x ≠ 0 → e < maxExp → ¬ (10 : Int) ∣ m.toInt) ∧
      (value x = 0 → e = min 0 maxExp) := by
  have hw := bits_pos L
  unfold FP.toDecimal
  have h1 : (rustAssert (decide (-(P : Int) ≤ maxExp)) : Res ε Unit) = .ok () := by
    rw [decide_eq_true h]; rfl
  rw [h1, ok_bind]
  by_cases h0 : x.inner.toInt = 0
  · rw [if_pos h0]
    have hz : value x = 0 := (value_eq_zero_iff x).2 h0
    refine ⟨_, _, rfl, ?_, ?_, ?_, fun hc => absurd hz hc, fun _ => ?_⟩
    · split <;> omega
    · split <;> omega
    · rw [hz, toInt_ofInt_of_fits hw]
      · simp
      · have := half_pos L; rw [fits_half]; omega
    · split <;> omega
  · rw [if_neg h0]
    have hb : |x.inner.toInt| < 2 ^ (L.bits + 1) := by
      have h2 : (2 : Int) ^ (L.bits + 1) = 4 * 2 ^ (L.bits - 1) := by
        rw [show L.bits + 1 = (L.bits - 1) + 2 by omega, pow_add]; ring
      have h3 := (fits_half L _).1 (toInt_fits x.inner)
      have h4 := half_pos L
      rw [h2, abs_lt]
      unfold half at h3 h4
      omega
    obtain ⟨m, e, i1, i2, i3, i4, i5, i6⟩ :=
      toDecimalLoop_spec (ε := ε) maxExp (L.bits + 1) x.inner (-(P : Int)) h0
        (lt_of_lt_of_le hb (pow_le_pow_left₀ (by norm_num) (by norm_num) _)) h
    refine ⟨m, e, i1, i2, i3, ?_, fun _ => i5, fun hc => absurd ((value_eq_zero_iff x).1 hc) h0⟩
    rw [zpow_value e P i2]
    unfold value
    rw [i4, show (e - -(P : Int)) = e + P by omega]
    push_cast; ring

example := C25_to_decimal (ε := Unit) (⟨5500000000⟩ : FP .i64 9) (-2) (by decide)

/-- C25: `to_decimal` panics exactly when `max_exponent < -P`. -/
theorem C25_to_decimal_panic_iff (x : FP L P) (maxExp : Int) :
    (FP.toDecimal x maxExp : Res ε _) = .panic ↔ maxExp < -(P : Int) := by
  constructor
  · intro h
    by_contra hc
    obtain ⟨m, e, h1, _⟩ := C25_to_decimal (ε := ε) x maxExp (by omega)
    rw [h] at h1; cases h1
  · intro h
    unfold FP.toDecimal
    have h1 : (rustAssert (decide (-(P : Int) ≤ maxExp)) : Res ε Unit) = .panic := by
      rw [decide_eq_false (by omega)]; rfl
    rw [h1, fault_bind]

example : (FP.toDecimal (⟨5500000000⟩ : FP .i64 9) 0 : Res Unit _) = .ok (55, -1) ∧
    (FP.toDecimal (⟨5500000000⟩ : FP .i64 9) (-2) : Res Unit _) = .ok (550, -2) ∧
    (FP.toDecimal (⟨50000000000⟩ : FP .i64 9) 2147483647 : Res Unit _) = .ok (5, 1) ∧
    (FP.toDecimal (⟨0⟩ : FP .i64 9) (-2) : Res Unit _) = .ok (0, -2) ∧
    (FP.toDecimal (⟨5⟩ : FP .i64 9) (-10) : Res Unit _) = .panic := by decide +kernel

/-- C26: `from_decimal` inverts `to_decimal` for `max_exponent` in `[-P, 10]`, without exception. -/
theorem C26_round_trip {cfg : Cfg} (hv : Valid cfg L P) (x : FP L P) (maxExp : Int)
    (h : -(P : Int) ≤ maxExp ∧ maxExp ≤ 10) :
    ∃ m e, (FP.toDecimal x maxExp : Res ε _) = .ok (m, e) ∧
      (FP.fromDecimal cfg m e : Res ConvErr (FP L P)) = .ok x := by
  obtain ⟨m, e, h1, h2, h3, h4, _, h5⟩ := C25_to_decimal (ε := ε) x maxExp h.1
  refine ⟨m, e, h1, ?_⟩
  have key : (10 : Int) ^ (e + P).toNat ≤ rawMax L := by
    by_cases h0 : value x = 0
    · have := h5 h0
      have h6 : (10 : Int) ^ (e + P).toNat ≤ 10 ^ P := ten_pow_le_iff.2 (by omega)
      have := hv.1
      omega
    · have hx : x.inner.toInt = m.toInt * 10 ^ (e + P).toNat := by
        rw [zpow_value e P h2] at h4
        unfold value at h4
        rw [← mul_div_assoc, div_left_inj' (ten_pow_ne P)] at h4
        exact_mod_cast h4.symm
      have hm0 : m.toInt ≠ 0 := by
        intro hc; apply h0; rw [← h4, hc]; simp
      have hp : (0 : Int) < 10 ^ (e + P).toNat := by positivity
      have h7 : (10 : Int) ^ (e + P).toNat ≤ |x.inner.toInt| := by
        rw [hx, abs_mul, abs_of_pos hp]
        have := abs_pos.2 hm0
        nlinarith
      have h8 : |x.inner.toInt| ≤ half L := by
        have := (fits_half L _).1 (toInt_fits x.inner); rw [abs_le]; omega
      have h9 := ten_pow_ne_half L (e + P).toNat
      rw [rawMax_half]
      omega
  have := C24_from_decimal_partial (P := P) cfg m e (by omega) key
  rw [h4] at this
  exact ExactOr.ok_of_value this

example := C26_round_trip (ε := Unit) (cfg := debugCfg) (by decide) (⟨-12340000000⟩ : FP .i64 9) (-3) (by decide)

example : Valid debugCfg .i64 9 ∧ -((9 : Nat) : Int) ≤ 10 := by decide
example : (FP.toDecimal (FP.min : FP .i64 9) 10 : Res Unit _) = .ok (-9223372036854775808, -9) ∧
    (FP.fromDecimal debugCfg (-9223372036854775808) (-9) : Res ConvErr (FP .i64 9)) = .ok FP.min := by
  decide +kernel

end Fixnum
