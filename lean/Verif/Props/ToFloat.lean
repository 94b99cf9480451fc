import Verif.FloatOpsBasic
import Verif.Props.Float

/-! # Property C46: conversion to `f64` -/

namespace Fixnum

open Res Spec F64

variable {L : Layout} {P : Nat} {ε : Type}

/-- The rounding used by the model of `as f64`, `/` and `+` is that of IEEE 754: to nearest, ties to
even. -/
theorem C46_model_rounding {v : ℚ} (hv : |v| < 2 ^ 1023) : f64Nearest (F64.ofRat v) v :=
  ofRat_nearest hv

example := C46_model_rounding (v := 1342 / 100) (by decide +kernel)

theorem ofRat_neg (v : ℚ) : f64Value (ofRat (-v)) = -f64Value (ofRat v) := by
  by_cases h0 : v = 0
  · rw [h0, neg_zero, ofRat_zero, f64Value_zero, neg_zero]
  · rw [← C41_f64Neg_value]
    congr 1
    have hn : v.num ≠ 0 := Rat.num_ne_zero.2 h0
    obtain ⟨m, hm⟩ : ∃ m, m = roundMag v.num.natAbs v.den := ⟨_, rfl⟩
    have hlt : m ≤ 2047 * 2 ^ 52 := by
      rw [hm]
      unfold roundMag
      split
      · norm_num
      · exact min_le_left _ _
    apply BitVec.eq_of_toNat_eq
    rw [f64Neg_toNat]
    have e1 : (ofRat v).toNat = if v.num < 0 then 2 ^ 63 + m else m := by
      unfold ofRat
      dsimp only
      rw [← hm, BitVec.toNat_ofNat, Nat.mod_eq_of_lt]
      split <;> omega
    have e2 : (ofRat (-v)).toNat = if -v.num < 0 then 2 ^ 63 + m else m := by
      unfold ofRat
      dsimp only
      rw [Rat.num_neg_eq_neg_num, Rat.den_neg_eq_den, Int.natAbs_neg, ← hm, BitVec.toNat_ofNat,
        Nat.mod_eq_of_lt]
      split <;> omega
    have e3 : f64Negative (ofRat v) ↔ v.num < 0 := by
      unfold f64Negative
      rw [e1]
      split <;> omega
    rw [e1, e2]
    by_cases h : v.num < 0
    · rw [if_pos (e3.2 h), if_pos h, if_neg (by omega)]; omega
    · rw [if_neg (fun hc => h (e3.1 hc)), if_neg h, if_pos (by omega)]; omega

theorem core_neg (z c : Int) : f64Value (f64Core (-z) c) = -f64Value (f64Core z c) := by
  unfold f64Core F64.add F64.div ofInt
  rw [Int.neg_tdiv, Int.neg_tmod]
  simp only [toRat_eq, Int.cast_neg, ofRat_neg, neg_div]
  rw [← neg_add, ofRat_neg]

theorem valid_bounds {cfg : Cfg} (hv : Valid cfg L P) (a : FP L P) :
    (0 : Int) < 10 ^ P ∧ (10 : Int) ^ P ≤ 2 ^ 127 ∧ |a.inner.toInt| ≤ 2 ^ 127 ∧ P ≤ 10 ^ 9 := by
  have h1 := rawMax_lt L
  have h2 := hv.1
  have fa := toInt_fits a.inner
  rw [fits_half] at fa
  rw [rawMax_half] at h1 h2
  refine ⟨by positivity, by omega, by rw [abs_le]; omega, ?_⟩
  by_contra hc
  have h3 : (10 : Int) ^ 39 ≤ 10 ^ P := pow_le_pow_right₀ (by norm_num) (by omega)
  have h4 : (2 : Int) ^ 127 < 10 ^ 39 := by norm_num
  omega

theorem value_raw (a : FP L P) : value a = (a.inner.toInt : ℚ) / ((10 ^ P : Int) : ℚ) := by
  unfold value; push_cast; rfl

/-- C46, accuracy: the relative error is at most `3.001·2^-53`. -/
theorem core_err_general {z c : Int} (hc : 0 < c) (hc' : c ≤ 2 ^ 127) (hz : |z| ≤ 2 ^ 127) :
    |f64Value (f64Core z c) - z / c| ≤ 3001 / 1000 / 2 ^ 53 * |(z : ℚ) / c| := by
  have hu0 := unitErr_pos
  have hu1 := unitErr_lt
  have hr := abs_tmod_lt z hc
  have hB := ofInt_err (z := z.tmod c) (by omega)
  have hC := ofInt_err (z := c) (by rw [abs_of_pos hc]; exact hc')
  have hA := ofInt_err (z := z.tdiv c) (le_trans (abs_tdiv_le_self z hc) hz)
  have hva := abs_tdiv_tmod z hc
  have hcq : (0 : ℚ) < c := by exact_mod_cast hc
  have hu : (3001 : ℚ) / 1000 / 2 ^ 53 = 3001 / 1000 * unitErr := by unfold unitErr; ring
  rw [hu]
  by_cases hi : z.tdiv c = 0
  · refine le_trans (core_err_zero hc hc' hu0.le hu0.le le_rfl le_rfl hi hB hC) ?_
    gcongr
    nlinarith
  · refine le_trans (core_err_ne hc hc' hz hu0.le le_rfl hu0.le hu0.le le_rfl le_rfl hi hA hB hC) ?_
    have hi1 : (1 : ℚ) ≤ |((z.tdiv c : Int) : ℚ)| := by exact_mod_cast Int.one_le_abs hi
    have hlt1 : |((z.tmod c : Int) : ℚ) / c| ≤ 1 := by
      rw [abs_div, abs_of_pos hcq, div_le_one hcq]
      exact_mod_cast hr.le
    have hf := abs_nonneg (((z.tmod c : Int) : ℚ) / c)
    rw [hva]
    generalize |((z.tmod c : Int) : ℚ) / c| = f at *
    generalize |((z.tdiv c : Int) : ℚ)| = i at *
    generalize unitErr = u at *
    have h2 : u ^ 2 ≤ u / 10 ^ 15 := by nlinarith
    have h3 : u * f ≤ u * i := by gcongr; linarith
    · have h4 : u ^ 2 * f ≤ u / 10 ^ 15 * f := by gcongr
      have h5 : u ^ 2 * i ≤ u / 10 ^ 15 * i := by gcongr
      have h6 : 0 ≤ u * f := by positivity
      have h7 : 0 ≤ u * i := by positivity
      nlinarith

/-- C46, accuracy when either the type is not `i128`-based or the raw value is below `2^53`. -/
theorem core_err_small {z : Int} (hP : (10 : Int) ^ P ≤ 2 ^ 127)
    (hz : |z| ≤ 2 ^ 53 ∨ (|z| ≤ 2 ^ 63 ∧ P ≤ 18)) :
    |f64Value (f64Core z (10 ^ P)) - z / ((10 ^ P : Int) : ℚ)| ≤
      2001 / 1000 / 2 ^ 53 * |(z : ℚ) / ((10 ^ P : Int) : ℚ)| := by
  have hu0 := unitErr_pos
  have hu1 := unitErr_lt
  obtain ⟨c, hcdef⟩ : ∃ c : Int, c = 10 ^ P := ⟨_, rfl⟩
  have hc : 0 < c := by rw [hcdef]; positivity
  have hc' : c ≤ 2 ^ 127 := by rw [hcdef]; exact hP
  have hten : P ≤ 22 → |f64Value (ofInt c) - c| ≤ 0 * |(c : ℚ)| := by
    intro h
    rw [hcdef, ofInt_ten_pow h]; push_cast; simp
  rw [← hcdef]
  have hr := abs_tmod_lt z hc
  have hz127 : |z| ≤ 2 ^ 127 := by
    have h1 : (2 : Int) ^ 63 ≤ 2 ^ 127 := by norm_num
    have h2 : (2 : Int) ^ 53 ≤ 2 ^ 127 := by norm_num
    omega
  have hA := ofInt_err (z := z.tdiv c) (le_trans (abs_tdiv_le_self z hc) hz127)
  have hB := ofInt_err (z := z.tmod c) (by omega)
  have hC := ofInt_err (z := c) (by rw [abs_of_pos hc]; exact hc')
  have hva := abs_tdiv_tmod z hc
  have hcq : (0 : ℚ) < c := by exact_mod_cast hc
  have hu : (2001 : ℚ) / 1000 / 2 ^ 53 = 2001 / 1000 * unitErr := by unfold unitErr; ring
  have hexact : ∀ y : Int, |y| ≤ 2 ^ 53 → |f64Value (ofInt y) - y| ≤ 0 * |(y : ℚ)| := by
    intro y hy
    rw [ofInt_exact hy]; simp
  have hmul := abs_tdiv_mul_le z c
  rw [abs_mul, abs_of_pos hc] at hmul
  have hmod : |z.tmod c| ≤ |z| := by
    have key : ∀ y : Int, 0 ≤ y → y.tmod c ≤ y := by
      intro y hy
      have h1 := Int.mul_tdiv_add_tmod y c
      have h2 := mul_nonneg hc.le (Int.tdiv_nonneg hy hc.le)
      omega
    rcases le_or_gt 0 z with h | h
    · rw [abs_of_nonneg (Int.tmod_nonneg _ h), abs_of_nonneg h]
      exact key z h
    · rw [← abs_neg, ← Int.neg_tmod, abs_of_nonneg (Int.tmod_nonneg _ (by omega)), abs_of_neg h]
      exact key (-z) (by omega)
  rw [hu]
  by_cases hi : z.tdiv c = 0
  · -- either the coefficient is exact, or the remainder is
    rcases hz with hz | ⟨hz, hP18⟩
    · refine le_trans (core_err_zero hc hc' le_rfl hu0.le hu0.le le_rfl hi
        (hexact _ (le_trans hmod hz)) hC) ?_
      gcongr
      nlinarith
    · refine le_trans (core_err_zero hc hc' hu0.le le_rfl le_rfl hu0.le hi hB (hten (by omega))) ?_
      gcongr
      nlinarith
  · have hi1 : (1 : Int) ≤ |z.tdiv c| := Int.one_le_abs hi
    have hcz : c ≤ |z| := le_trans (le_mul_of_one_le_left hc.le hi1) hmul
    have hP22 : P ≤ 22 := by
      rcases hz with hz | ⟨-, h⟩
      · by_contra hp
        have h1 : (10 : Int) ^ 23 ≤ 10 ^ P := pow_le_pow_right₀ (by norm_num) (by omega)
        have h2 : (2 : Int) ^ 53 < 10 ^ 23 := by norm_num
        omega
      · omega
    have hiq : (1 : ℚ) ≤ |((z.tdiv c : Int) : ℚ)| := by exact_mod_cast hi1
    have hlt1 : |((z.tmod c : Int) : ℚ) / c| ≤ 1 := by
      rw [abs_div, abs_of_pos hcq, div_le_one hcq]
      exact_mod_cast hr.le
    have hf0 := abs_nonneg (((z.tmod c : Int) : ℚ) / c)
    by_cases hc53 : c ≤ 2 ^ 53
    · refine le_trans (core_err_ne hc hc' hz127 hu0.le le_rfl le_rfl le_rfl hu0.le hu0.le hi hA
        (hexact _ (by omega)) (hten hP22)) ?_
      rw [hva]
      generalize |((z.tmod c : Int) : ℚ) / c| = f at *
      generalize |((z.tdiv c : Int) : ℚ)| = i at *
      generalize unitErr = u at *
      have h2 : u ^ 2 ≤ u / 10 ^ 15 := by nlinarith
      have h4 : u ^ 2 * f ≤ u / 10 ^ 15 * f := by gcongr
      have h5 : u ^ 2 * i ≤ u / 10 ^ 15 * i := by gcongr
      have h6 : 0 ≤ u * f := by positivity
      have h7 : 0 ≤ u * i := by positivity
      nlinarith
    · have hi53 : |z.tdiv c| ≤ 2 ^ 53 := by
        have hz63 : |z| ≤ 2 ^ 63 := by omega
        by_contra hn
        have h1 : (2 ^ 53 : Int) * 2 ^ 53 ≤ |z.tdiv c| * c := by
          apply mul_le_mul <;> omega
        have h2 : (2 : Int) ^ 63 < 2 ^ 53 * 2 ^ 53 := by norm_num
        omega
      refine le_trans (core_err_ne hc hc' hz127 le_rfl hu0.le hu0.le le_rfl le_rfl hu0.le hi
        (hexact _ hi53) hB (hten hP22)) ?_
      rw [hva]
      generalize |((z.tmod c : Int) : ℚ) / c| = f at *
      generalize |((z.tdiv c : Int) : ℚ)| = i at *
      generalize unitErr = u at *
      have h2 : u ^ 2 ≤ u / 10 ^ 15 := by nlinarith
      have h3 : u * f ≤ u * i := by gcongr; linarith
      have h4 : u ^ 2 * f ≤ u / 10 ^ 15 * f := by gcongr
      have h5 : u ^ 2 * i ≤ u / 10 ^ 15 * i := by gcongr
      have h6 : 0 ≤ u * f := by positivity
      have h7 : 0 ≤ u * i := by positivity
      nlinarith

/-! ## C46 -/

/-- C46: the conversion returns, and the result is finite. -/
theorem C46_finite {cfg : Cfg} (hv : Valid cfg L P) (a : FP L P) :
    ∃ f, (FP.toF64 cfg a : Res ε _) = .ok f ∧ f64Finite f := by
  refine ⟨_, toF64_eq hv a, ?_⟩
  obtain ⟨h1, h2, h3, -⟩ := valid_bounds hv a
  have hr := abs_tmod_lt a.inner.toInt h1
  have hB := ofInt_err (z := a.inner.toInt.tmod (10 ^ P)) (by omega)
  have hC := ofInt_err (z := 10 ^ P) (by rw [abs_of_pos h1]; exact h2)
  have hid := le_trans (abs_tdiv_le_self a.inner.toInt h1) h3
  have hA := ofInt_err (z := a.inner.toInt.tdiv (10 ^ P)) hid
  have hu0 := unitErr_pos
  have hu1 := unitErr_lt
  obtain ⟨-, hD⟩ := frac_err h1 h2 (show |a.inner.toInt.tmod (10 ^ P)| ≤ 2 ^ 127 by omega) hu0.le
    hu0.le le_rfl le_rfl hB hC
  have hcq : (0 : ℚ) < ((10 ^ P : Int) : ℚ) := by exact_mod_cast h1
  have hlt1 : |((a.inner.toInt.tmod (10 ^ P) : Int) : ℚ) / ((10 ^ P : Int) : ℚ)| ≤ 1 := by
    rw [abs_div, abs_of_pos hcq, div_le_one hcq]
    exact_mod_cast hr.le
  have hi2 : |((a.inner.toInt.tdiv (10 ^ P) : Int) : ℚ)| ≤ 2 ^ 127 := by exact_mod_cast hid
  unfold f64Core F64.add
  rw [toRat_eq, toRat_eq]
  refine (ofRat_nearest ?_).1
  generalize f64Value (F64.div (ofInt (a.inner.toInt.tmod (10 ^ P))) (ofInt (10 ^ P))) = D at *
  generalize f64Value (ofInt (a.inner.toInt.tdiv (10 ^ P))) = A at *
  generalize ((a.inner.toInt.tmod (10 ^ P) : Int) : ℚ) / ((10 ^ P : Int) : ℚ) = f at *
  generalize ((a.inner.toInt.tdiv (10 ^ P) : Int) : ℚ) = i at *
  have k1 := abs_sub_abs_le_abs_sub D f
  have k2 := abs_sub_abs_le_abs_sub A i
  have k3 := abs_add_le A D
  have k4 : (unitErr + unitErr + unitErr + 8 * unitErr ^ 2) * |f| ≤ 1 * 1 := by
    gcongr
    nlinarith
  have k5 : unitErr * |i| ≤ 1 * 2 ^ 127 := by
    gcongr
    linarith
  have k6 : (2 : ℚ) ^ 127 + 2 ^ 127 + 2 < 2 ^ 200 := by norm_num
  refine lt_trans (b := (2 : ℚ) ^ 200) ?_ (pow_lt_pow_right₀ (by norm_num) (by norm_num))
  linarith

example := C46_finite (ε := Unit) (cfg := debugCfg) (by decide) (⟨13420000000⟩ : FP .i64 9)

/-- C46: the relative error is at most `3.001·2^-53`. -/
theorem C46_error_bound {cfg : Cfg} (hv : Valid cfg L P) (a : FP L P) (f : BitVec 64)
    (hf : (FP.toF64 cfg a : Res ε _) = .ok f) :
    |f64Value f - value a| ≤ 3001 / 1000 / 2 ^ 53 * |value a| := by
  obtain ⟨h1, h2, h3, -⟩ := valid_bounds hv a
  rw [toF64_eq hv a] at hf
  cases hf
  rw [value_raw]
  exact core_err_general h1 h2 h3

example := C46_error_bound (ε := Unit) (cfg := debugCfg) (by decide) (⟨13420000000⟩ : FP .i128 9)
  0x402AD70A3D70A3D7 (by decide +kernel)

/-- C46: for the layouts up to 64 bits, and for `i128` with raw values up to `2^53`, the relative
error is at most `2.001·2^-53`. -/
theorem C46_error_bound_small {cfg : Cfg} (hv : Valid cfg L P) (a : FP L P) (f : BitVec 64)
    (hf : (FP.toF64 cfg a : Res ε _) = .ok f)
    (hs : L ≠ .i128 ∨ |value a| * 10 ^ P ≤ 2 ^ 53) :
    |f64Value f - value a| ≤ 2001 / 1000 / 2 ^ 53 * |value a| := by
  obtain ⟨h1, h2, h3, -⟩ := valid_bounds hv a
  rw [toF64_eq hv a] at hf
  cases hf
  have hcq : (0 : ℚ) < ((10 ^ P : Int) : ℚ) := by exact_mod_cast h1
  have hs' : |a.inner.toInt| ≤ 2 ^ 53 ∨ (|a.inner.toInt| ≤ 2 ^ 63 ∧ P ≤ 18) := by
    rcases hs with hs | hs
    · right
      have h19 := ten_pow_lt_19 hv.1 hs
      refine ⟨?_, by omega⟩
      have fa := toInt_fits a.inner
      rw [fits_half] at fa
      have : half L ≤ 2 ^ 63 := by cases L <;> first | decide | exact absurd rfl hs
      rw [abs_le]
      omega
    · left
      have e : |value a| * 10 ^ P = ((|a.inner.toInt| : Int) : ℚ) := by
        have hp : (0 : ℚ) < 10 ^ P := by positivity
        unfold value
        rw [abs_div, abs_of_pos hp, div_mul_cancel₀ _ hp.ne', Int.cast_abs]
      rw [e] at hs
      exact_mod_cast hs
  rw [value_raw]
  exact core_err_small h2 hs'

example := C46_error_bound_small (ε := Unit) (cfg := debugCfg) (by decide)
  (⟨13420000000⟩ : FP .i64 9) 0x402AD70A3D70A3D7 (by decide +kernel) (.inl (by decide))

/-- C46: the sign is kept, and only zero becomes zero (`+0.0`). -/
theorem C46_sign {cfg : Cfg} (hv : Valid cfg L P) (a : FP L P) (f : BitVec 64)
    (hf : (FP.toF64 cfg a : Res ε _) = .ok f) :
    (0 < f64Value f ↔ 0 < value a) ∧ (f64Value f < 0 ↔ value a < 0) ∧
      (value a = 0 → f = 0) := by
  have he := C46_error_bound hv a f hf
  have hk : (3001 : ℚ) / 1000 / 2 ^ 53 ≤ 1 / 2 := by norm_num
  have h1 : |f64Value f - value a| ≤ 1 / 2 * |value a| :=
    le_trans he (mul_le_mul_of_nonneg_right hk (abs_nonneg _))
  rw [abs_le] at h1
  refine ⟨?_, ?_, ?_⟩
  · rcases abs_cases (value a) with ⟨h, h'⟩ | ⟨h, h'⟩ <;> rw [h] at h1 <;>
      constructor <;> intro hh <;> linarith
  · rcases abs_cases (value a) with ⟨h, h'⟩ | ⟨h, h'⟩ <;> rw [h] at h1 <;>
      constructor <;> intro hh <;> linarith
  · intro h0
    rw [toF64_eq hv a] at hf
    cases hf
    obtain ⟨k1, k2, k3, -⟩ := valid_bounds hv a
    have hz : a.inner.toInt = 0 := by
      have hp : (0 : ℚ) < 10 ^ P := by positivity
      unfold value at h0
      rw [div_eq_zero_iff] at h0
      rcases h0 with h | h
      · exact_mod_cast h
      · exact absurd h hp.ne'
    unfold f64Core F64.add F64.div ofInt
    rw [hz, Int.zero_tdiv, Int.zero_tmod, Int.cast_zero, ofRat_zero]
    simp only [toRat_eq, f64Value_zero, zero_div, ofRat_zero, add_zero]

example := C46_sign (ε := Unit) (cfg := debugCfg) (by decide) (⟨13420000000⟩ : FP .i64 9)
  0x402AD70A3D70A3D7 (by decide +kernel)

/-- C46: the conversion is odd. -/
theorem C46_odd {cfg : Cfg} (hv : Valid cfg L P) (a b : FP L P) (f : BitVec 64)
    (hf : (FP.toF64 cfg a : Res ε _) = .ok f) (hb : value b = -value a) :
    ∃ g, (FP.toF64 cfg b : Res ε _) = .ok g ∧ f64Value g = -f64Value f := by
  refine ⟨_, toF64_eq hv b, ?_⟩
  rw [toF64_eq hv a] at hf
  cases hf
  have hz : b.inner.toInt = -a.inner.toInt := by
    have hp : (0 : ℚ) < 10 ^ P := by positivity
    unfold value at hb
    rw [← neg_div, div_left_inj' hp.ne'] at hb
    exact_mod_cast hb
  rw [hz, core_neg]

example := C46_odd (ε := Unit) (cfg := debugCfg) (by decide) (⟨13420000000⟩ : FP .i64 9)
  ⟨-13420000000⟩ 0x402AD70A3D70A3D7 (by decide +kernel) (by decide +kernel)

/-- C46: integers up to `2^53` are converted exactly. -/
theorem C46_integer_exact {cfg : Cfg} (hv : Valid cfg L P) (a : FP L P) (f : BitVec 64)
    (hf : (FP.toF64 cfg a : Res ε _) = .ok f) (n : Int) (hn : value a = n) (hs : |n| ≤ 2 ^ 53) :
    f64Value f = n := by
  rw [toF64_eq hv a] at hf
  cases hf
  obtain ⟨h1, -⟩ := valid_bounds hv a
  have hz : a.inner.toInt = n * 10 ^ P := by
    have hp : (0 : ℚ) < 10 ^ P := by positivity
    unfold value at hn
    rw [div_eq_iff hp.ne'] at hn
    exact_mod_cast hn
  unfold f64Core F64.add F64.div
  rw [hz, Int.mul_tdiv_cancel _ h1.ne', Int.mul_tmod_left]
  have h0 : ofInt 0 = 0 := by unfold ofInt; rw [Int.cast_zero, ofRat_zero]
  rw [h0]
  simp only [toRat_eq, f64Value_zero, zero_div, ofRat_zero, add_zero]
  rw [ofInt_exact hs]
  have := ofInt_exact hs
  unfold ofInt at this
  exact this

example := C46_integer_exact (ε := Unit) (cfg := debugCfg) (by decide) (⟨-3000000000⟩ : FP .i64 9)
  0xC008000000000000 (by decide +kernel) (-3) (by decide +kernel) (by norm_num)

/-- C46: with zero digits the result is the correctly rounded `f64`. -/
theorem C46_precision_zero {cfg : Cfg} (hv : Valid cfg L 0) (a : FP L 0) (f : BitVec 64)
    (hf : (FP.toF64 cfg a : Res ε _) = .ok f) :
    ∀ g, f64Finite g → |f64Value f - value a| ≤ |f64Value g - value a| := by
  intro g hg
  rw [toF64_eq hv a] at hf
  cases hf
  obtain ⟨h1, h2, h3, -⟩ := valid_bounds hv a
  have hva : value a = (a.inner.toInt : ℚ) := by unfold value; simp
  have hlt : |(a.inner.toInt : ℚ)| < 2 ^ 1023 := by
    have : |(a.inner.toInt : ℚ)| ≤ 2 ^ 127 := by exact_mod_cast h3
    exact lt_of_le_of_lt this (pow_lt_pow_right₀ (by norm_num) (by norm_num))
  have hn := ofRat_nearest hlt
  have h0 : ofInt 0 = 0 := by unfold ofInt; rw [Int.cast_zero, ofRat_zero]
  have hA := ofInt_err (z := a.inner.toInt) h3
  have e : f64Value (f64Core a.inner.toInt (10 ^ 0)) = f64Value (ofRat a.inner.toInt) := by
    unfold f64Core F64.add F64.div
    rw [pow_zero, Int.tdiv_one, Int.tmod_one, h0]
    simp only [toRat_eq, f64Value_zero, zero_div, ofRat_zero, add_zero]
    refine ofRat_exact ?_ _ hn.1 rfl
    have k2 := abs_sub_abs_le_abs_sub (f64Value (ofInt a.inner.toInt)) (a.inner.toInt : ℚ)
    have hi2 : |(a.inner.toInt : ℚ)| ≤ 2 ^ 127 := by exact_mod_cast h3
    have hu0 := unitErr_pos
    have hu1 := unitErr_lt
    have k5 : unitErr * |(a.inner.toInt : ℚ)| ≤ 1 * 2 ^ 127 := by
      gcongr
      linarith
    have k6 : (2 : ℚ) ^ 127 + 2 ^ 127 < 2 ^ 200 := by norm_num
    refine lt_trans (b := (2 : ℚ) ^ 200) ?_ (pow_lt_pow_right₀ (by norm_num) (by norm_num))
    linarith
  rw [e, hva]
  exact hn.2.2.1 g hg

example := C46_precision_zero (ε := Unit) (cfg := debugCfg) (by decide) (⟨3⟩ : FP .i64 0) 0x4008000000000000
  (by decide +kernel)

-- 13.42 and MIN
example : (FP.toF64 debugCfg (⟨13420000000⟩ : FP .i64 9) : Res Unit _) =
      .ok 0x402AD70A3D70A3D7 ∧
    (FP.toF64 debugCfg (FP.min : FP .i64 9) : Res Unit _) = .ok 0xC2012E0BE826D695 := by
  decide +kernel

/-- Up to `1.74·10^15` raw units the round trip follows from the error bounds (see C47). -/
theorem round_trip_small {cfg cfg' : Cfg} (hv : Valid cfg L P) (a : FP L P) (f : BitVec 64)
    (hf : (FP.toF64 cfg a : Res ε _) = .ok f) (hs : |value a| * 10 ^ P ≤ 174 * 10 ^ 13)
    (hm : value a ≠ minValue L P) : FP.tryFromF64 cfg' f = .ok a := by
  have hp : (0 : ℚ) < 10 ^ P := by positivity
  obtain ⟨-, -, -, hP⟩ := valid_bounds hv a
  have hfin : f64Finite f := by
    obtain ⟨g, h1, h2⟩ := C46_finite (ε := ε) hv a
    rw [hf] at h1
    cases h1
    exact h2
  have he := C46_error_bound_small hv a f hf (Or.inr (le_trans hs (by norm_num)))
  refine C45_nearest_partial cfg' hP f hfin a (lt_of_le_of_lt hs (by norm_num)) hm ?_
  rw [le_div_iff₀ hp]
  have h1 := mul_le_mul_of_nonneg_right he hp.le
  refine le_trans h1 ?_
  rw [mul_assoc]
  refine le_trans (mul_le_mul_of_nonneg_left hs (by positivity)) ?_
  norm_num

end Fixnum
