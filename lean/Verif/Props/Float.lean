import Verif.FloatCore
import Verif.Props.Rounding

/-! # Properties C40–C45: conversion from `f64` -/

namespace Fixnum

open Res Spec F64

variable {L : Layout} {P : Nat} {ε : Type}

/-! ## C40 -/

/-- C40: infinities and NaNs (whatever the payload) are rejected with "not finite". -/
theorem C40_not_finite (cfg : Cfg) (f : BitVec 64) (h : ¬ f64Finite f) :
    (FP.tryFromF64 cfg f : Res ConvErr (FP L P)) = .err ⟨"not finite"⟩ := by
  unfold FP.tryFromF64
  rw [if_pos]
  rcases hb : isFinite f
  · rfl
  · exact absurd ((isFinite_iff f).1 hb) h

example := C40_not_finite (L := .i64) (P := 9) debugCfg 0x7FF0000000000000 (by decide +kernel)

/-- C40: that error means exactly that. -/
theorem C40_finite (cfg : Cfg) (hP : P ≤ 10 ^ 9) (f : BitVec 64) (h : f64Finite f) :
    (FP.tryFromF64 cfg f : Res ConvErr (FP L P)) ≠ .err ⟨"not finite"⟩ := by
  obtain ⟨r, -, hr⟩ := tryFromF64_spec cfg L f h hP
  rw [hr]
  unfold finish
  split
  · simp
  · intro h
    injection h with h
    injection h with h
    exact absurd h (by decide)

example := C40_finite (L := .i64) (P := 9) debugCfg (by norm_num) 0x7FEFFFFFFFFFFFFF (by decide +kernel)

/-- C40: both zeros are converted to zero. -/
theorem C40_zero (cfg : Cfg) (f : BitVec 64) (h : f = 0 ∨ f = BitVec.ofNat 64 (2 ^ 63)) :
    (FP.tryFromF64 cfg f : Res ConvErr (FP L P)) = .ok FP.zero := by
  rcases h with rfl | rfl <;> rfl

example := C40_zero (L := .i64) (P := 9) debugCfg 0x8000000000000000 (by decide)

/-- The two patterns are the two zeros: nothing else has the value zero. -/
theorem C40_zero_iff (f : BitVec 64) (hf : f64Finite f) :
    f64Value f = 0 ↔ f = 0 ∨ f = BitVec.ofNat 64 (2 ^ 63) := by
  have hlt := f.isLt
  have hz : f64Value f = 0 ↔ f64Bits f = 0 := by
    unfold f64Value
    have : f64Magnitude f = 0 ↔ f64Bits f = 0 := by
      rw [f64Magnitude_eq, mul_eq_zero, Nat.cast_eq_zero]
      exact or_iff_left (by positivity)
    split
    · rw [neg_eq_zero, this]
    · exact this
  rw [hz]
  constructor
  · intro h
    have h1 : f64Exponent f = 0 ∧ f64Mantissa f = 0 := by
      unfold f64Bits at h
      split at h
      · exact ⟨by assumption, h⟩
      · omega
    unfold f64Exponent f64Mantissa at h1
    have h2 : f.toNat = 0 ∨ f.toNat = 2 ^ 63 := by omega
    rcases h2 with h2 | h2
    · left; exact BitVec.eq_of_toNat_eq (by rw [h2]; rfl)
    · right; exact BitVec.eq_of_toNat_eq (by rw [h2]; rfl)
  · rintro (rfl | rfl) <;> rfl

example := C40_zero_iff 0x3FF8000000000000 (by decide +kernel)

example : ¬ f64Finite 0x7FF0000000000000 ∧ ¬ f64Finite 0xFFF8000000000001 ∧
    f64Finite 0x3FF8000000000000 := by decide +kernel

/-! ## C41 -/

theorem f64Neg_toNat (f : BitVec 64) :
    (f64Neg f).toNat = if f64Negative f then f.toNat - 2 ^ 63 else f.toNat + 2 ^ 63 := by
  have hlt := f.isLt
  unfold f64Neg
  rw [BitVec.toNat_xor, BitVec.toNat_ofNat, Nat.mod_eq_of_lt (by norm_num)]
  by_cases h : 2 ^ 63 ≤ f.toNat
  · rw [if_pos (show f64Negative f from h)]
    obtain ⟨a, ha⟩ : ∃ a, f.toNat = a + 2 ^ 63 := ⟨f.toNat - 2 ^ 63, by omega⟩
    have ha' : a < 2 ^ 63 := by omega
    have e := Nat.two_pow_add_eq_or_of_lt ha' 1
    rw [mul_one] at e
    have e' : a + 2 ^ 63 = a ^^^ 2 ^ 63 := by
      rw [add_comm, e, Nat.or_comm]
      apply Nat.eq_of_testBit_eq
      intro i
      rw [Nat.testBit_or, Nat.testBit_xor, Nat.testBit_two_pow]
      by_cases hi : 63 = i
      · subst hi; rw [Nat.testBit_lt_two_pow ha']; simp
      · simp [hi]
    rw [ha, e', Nat.xor_assoc, Nat.xor_self, Nat.xor_zero, ← e']
    omega
  · rw [if_neg (show ¬ f64Negative f from h)]
    have ha' : f.toNat < 2 ^ 63 := by omega
    have e := Nat.two_pow_add_eq_or_of_lt ha' 1
    rw [mul_one] at e
    rw [add_comm, e, Nat.or_comm]
    apply Nat.eq_of_testBit_eq
    intro i
    rw [Nat.testBit_or, Nat.testBit_xor, Nat.testBit_two_pow]
    by_cases hi : 63 = i
    · subst hi; rw [Nat.testBit_lt_two_pow ha']; simp
    · simp [hi]

theorem f64Neg_fields (f : BitVec 64) : f64Exponent (f64Neg f) = f64Exponent f ∧
    f64Mantissa (f64Neg f) = f64Mantissa f ∧ (f64Negative (f64Neg f) ↔ ¬ f64Negative f) := by
  have hlt := f.isLt
  have hn := f64Neg_toNat f
  by_cases h : 2 ^ 63 ≤ f.toNat
  · rw [if_pos (show f64Negative f from h)] at hn
    unfold f64Exponent f64Mantissa f64Negative
    refine ⟨by omega, by omega, by omega⟩
  · rw [if_neg (show ¬ f64Negative f from h)] at hn
    unfold f64Exponent f64Mantissa f64Negative
    refine ⟨by omega, by omega, by omega⟩

/-- The sanity of `f64Neg`: it denotes the negated number. -/
theorem C41_f64Neg_value (f : BitVec 64) : f64Value (f64Neg f) = -f64Value f := by
  obtain ⟨h1, h2, h3⟩ := f64Neg_fields f
  have : f64Magnitude (f64Neg f) = f64Magnitude f := by unfold f64Magnitude; rw [h1, h2]
  unfold f64Value
  rw [this]
  by_cases h : f64Negative f
  · rw [if_neg (fun hn => h3.1 hn h), if_pos h, neg_neg]
  · rw [if_pos (h3.2 h), if_neg h]

example : f64Neg 0x3FF8000000000000 = 0xBFF8000000000000#64 := by decide +kernel

theorem value_finish {r : Nat} (neg : Bool) (h : (r : Int) ≤ rawMax L) :
    finish L P neg r = .ok ⟨BitVec.ofInt _ (if neg then -(r : Int) else r)⟩ ∧
    value (⟨BitVec.ofInt _ (if neg then -(r : Int) else r)⟩ : FP L P) =
      (if neg then -(r : ℚ) else r) / 10 ^ P := by
  have hh := half_pos L
  refine ⟨by unfold finish; rw [if_pos h], ?_⟩
  rw [value_ofInt (by rw [rawMax_half] at h; rw [fits_half]; split <;> omega)]
  cases neg <;> simp

/-- C41: the conversion is odd. -/
theorem C41_odd (cfg : Cfg) (f : BitVec 64) :
    (∀ x : FP L P, FP.tryFromF64 cfg f = .ok x →
      ∃ y : FP L P, FP.tryFromF64 cfg (f64Neg f) = .ok y ∧ value y = -value x) ∧
    (∀ e, (FP.tryFromF64 cfg f : Res ConvErr (FP L P)) = .err e →
      (FP.tryFromF64 cfg (f64Neg f) : Res ConvErr (FP L P)) = .err e) := by
  obtain ⟨h1, h2, h3⟩ := f64Neg_fields f
  by_cases hf : f64Finite f
  · have hf' : f64Finite (f64Neg f) := by unfold f64Finite; rw [h1]; exact hf
    by_cases h0 : f64Bits f = 0
    · have hz : f64Value f = 0 := by
        unfold f64Value; rw [f64Magnitude_eq, h0]; simp
      have hz' : f64Value (f64Neg f) = 0 := by rw [C41_f64Neg_value, hz, neg_zero]
      rw [C40_zero cfg f ((C40_zero_iff f hf).1 hz),
        C40_zero cfg _ ((C40_zero_iff _ hf').1 hz')]
      refine ⟨?_, by simp⟩
      rintro x h
      cases h
      refine ⟨_, rfl, ?_⟩
      have : value (FP.zero : FP L P) = 0 := by
        unfold value FP.zero FP.fromBits
        simp
      rw [this, neg_zero]
    · have h0' : f64Bits (f64Neg f) ≠ 0 := by unfold f64Bits; rw [h1, h2]; exact h0
      rw [tryFromF64_eq cfg f hf h0, tryFromF64_eq cfg _ hf' h0']
      have e1 : f64Bits (f64Neg f) = f64Bits f := by unfold f64Bits; rw [h1, h2]
      have e2 : f64Exp2 (f64Neg f) = f64Exp2 f := by unfold f64Exp2; rw [h1]
      rw [e1, e2]
      have e3 : decide (f64Negative (f64Neg f)) = !decide (f64Negative f) := by
        by_cases h : f64Negative f
        · rw [decide_eq_true h, decide_eq_false (fun hn => h3.1 hn h)]; rfl
        · rw [decide_eq_false h, decide_eq_true (h3.2 h)]; rfl
      rw [e3]
      generalize decide (f64Negative f) = neg
      rcases stages cfg P (f64Bits f) (f64Exp2 f) with r | e | k
      · rw [ok_bind, ok_bind]
        by_cases hr : (r : Int) ≤ rawMax L
        · obtain ⟨a1, a2⟩ := value_finish (P := P) neg hr
          obtain ⟨b1, b2⟩ := value_finish (P := P) (!neg) hr
          rw [a1, b1]
          refine ⟨?_, by simp⟩
          rintro x h
          cases h
          refine ⟨_, rfl, ?_⟩
          rw [a2, b2]
          cases neg
          · simp [neg_div]
          · simp [neg_div]
        · unfold finish
          rw [if_neg hr, if_neg hr]
          exact ⟨by simp, fun e h => h⟩
      · rw [err_bind, err_bind]
        exact ⟨by simp, fun e h => h⟩
      · rw [fault_bind, fault_bind]
        exact ⟨by simp, fun e h => h⟩
  · have hf' : ¬ f64Finite (f64Neg f) := by unfold f64Finite; rw [h1]; exact hf
    rw [C40_not_finite cfg f hf, C40_not_finite cfg _ hf']
    exact ⟨by simp, fun e h => h⟩

example : (FP.tryFromF64 debugCfg 0x4012000000000000 : Res ConvErr (FP .i64 9)) =
      .ok ⟨4500000000⟩ ∧ f64Neg 0x4012000000000000 = 0xC012000000000000 := by
  decide +kernel

/-! ## C42 -/

/-- C42: every bit pattern is converted or rejected: no panic (in particular no index out of bounds
and, with overflow checks, no overflow), and the loops end. -/
theorem C42_returns (cfg : Cfg) (L : Layout) (hP : P ≤ 10 ^ 9) (f : BitVec 64) :
    Returns (FP.tryFromF64 cfg f : Res ConvErr (FP L P)) := by
  by_cases hf : f64Finite f
  · obtain ⟨r, -, hr⟩ := tryFromF64_spec cfg L f hf hP
    rw [hr]
    unfold finish
    split <;> simp
  · rw [C40_not_finite cfg f hf]; simp

example (f : BitVec 64) := C42_returns (P := 9) debugCfg .i64 (by norm_num) f

-- the smallest subnormal and the largest number
example : (FP.tryFromF64 debugCfg 0x0000000000000001 : Res ConvErr (FP .i64 9)) = .ok ⟨0⟩ ∧
    (FP.tryFromF64 debugCfg 0x7FEFFFFFFFFFFFFF : Res ConvErr (FP .i64 9)) =
      .err ⟨"too big number"⟩ := by decide +kernel

/-! ## C43 -/

theorem natAbs_value {f : BitVec 64} {q : ℚ} (h : f64Value f = q) : f64Magnitude f = |q| := by
  have h0 : 0 ≤ f64Magnitude f := by rw [f64Magnitude_eq]; positivity
  rw [← h]
  unfold f64Value
  split
  · rw [abs_neg, abs_of_nonneg h0]
  · rw [abs_of_nonneg h0]

/-- Exactly scaled numbers. -/
theorem stages_int (cfg : Cfg) {b : Nat} {x : Int} (hb : 0 < b) (hb' : b < 2 ^ 53)
    (hx : -1100 ≤ x) (hx' : x ≤ 1000) (N : Nat) (hN : (b : ℚ) * 2 ^ x = N) (hlt : N < 2 ^ 128)
    (P : Nat) : stages cfg P b x = rescale cfg P N 0 := by
  by_cases h0 : 0 ≤ x
  · obtain ⟨n, rfl⟩ : ∃ n : Nat, x = n := ⟨x.toNat, by omega⟩
    rw [zpow_natCast] at hN
    have hN' : b * 2 ^ n = N := by exact_mod_cast hN
    unfold stages
    rw [scaleDown_nonpos cfg (by dsimp only; omega), ok_bind]
    dsimp only
    rw [neg_neg, Int.toNat_natCast, scaleUp_exact cfg n n b n (by rw [hN']; exact hlt) hb (le_refl _)
      (by omega) (by omega) (by omega), ok_bind, hN', sub_self, trim_skip cfg (by simp), ok_bind]
  · obtain ⟨n, rfl⟩ : ∃ n : Nat, x = -(n : Int) := ⟨(-x).toNat, by omega⟩
    have hN' : b = N * 2 ^ n := by
      rw [zpow_neg, zpow_natCast, ← div_eq_mul_inv, div_eq_iff (by positivity)] at hN
      exact_mod_cast hN
    unfold stages
    rw [neg_neg, scaleDown_int cfg hb hb' (by omega) (by omega) ⟨N, by rw [hN', mul_comm]⟩,
      ok_bind, hN', Nat.mul_div_cancel _ (by positivity)]
    dsimp only
    unfold scaleUp
    rw [neg_zero, Int.toNat_zero]
    dsimp only
    rw [if_neg (by omega), ok_bind, trim_skip cfg (by simp), ok_bind]

theorem rawMax_lt (L : Layout) : rawMax L < 2 ^ 127 := by cases L <;> decide

/-- A call that delivers the raw magnitude `r` exactly. -/
theorem exactOr_finish {q : ℚ} {neg : Bool} {r : Nat} (hq : q = (if neg then -(r : ℚ) else r) / 10 ^ P)
    (hm : q ≠ minValue L P) :
    ExactOr (⟨"too big number"⟩ : ConvErr) (finish L P neg r) q := by
  have hh := half_pos L
  by_cases h : (r : Int) ≤ rawMax L
  · obtain ⟨a1, a2⟩ := value_finish (P := P) neg h
    rw [a1]
    exact ⟨fun _ => ⟨_, rfl, by rw [a2, hq]⟩,
      fun hn => absurd ⟨_, by rw [a2, hq]⟩ hn⟩
  · have hnr : ¬ Representable L P q := by
      intro hr
      rw [rawMax_half] at h
      have hq' : q = ((if neg then -(r : Int) else r : Int) : ℚ) / 10 ^ P := by
        rw [hq]; cases neg <;> simp
      rw [hq', representable_iff, fits_half] at hr
      apply hm
      rw [hq', minValue, rawMin_half]
      cases neg
      · simp at hr; omega
      · simp only [if_true] at hr ⊢
        congr 2
        omega
    unfold finish
    rw [if_neg h]
    exact ⟨fun hr => absurd hr hnr, fun _ => rfl⟩

theorem too_big (r s : Nat) (hr : ¬ (r : Int) ≤ rawMax L) (hs : ¬ (s : Int) ≤ rawMax L)
    (neg : Bool) : finish L P neg r = finish L P neg s := by
  unfold finish; rw [if_neg hr, if_neg hs]

theorem finish_big {r : Nat} {neg : Bool} (hr : ¬ (r : Int) ≤ rawMax L) :
    finish L P neg r = .err ⟨"too big number"⟩ := by
  unfold finish; rw [if_neg hr]

/-- C43 (partial: the number is not `MIN`).  Every integer-valued `f64`, also above `2^53`, is
converted exactly, or rejected if not representable. -/
theorem C43_integer_partial (cfg : Cfg) (hP : P ≤ 10 ^ 9) (f : BitVec 64) (hf : f64Finite f)
    (n : Int) (hn : f64Value f = n) (hm : (n : ℚ) ≠ minValue L P) :
    ExactOr (⟨"too big number"⟩ : ConvErr) (FP.tryFromF64 cfg f : Res ConvErr (FP L P)) n := by
  have hpP : (0 : ℚ) < 10 ^ P := by positivity
  have hmag : f64Magnitude f = (n.natAbs : ℚ) := by
    rw [natAbs_value hn, Nat.cast_natAbs, Int.cast_abs]
  have hsign : (n : ℚ) = if decide (f64Negative f) = true then -((n.natAbs : ℚ)) else n.natAbs := by
    rw [← hn, ← hmag]
    unfold f64Value
    by_cases h : f64Negative f <;> simp [h]
  by_cases h0 : f64Bits f = 0
  · have hz : f64Value f = 0 := by unfold f64Value; rw [f64Magnitude_eq, h0]; simp
    have hn0 : n = 0 := by rw [hz] at hn; exact_mod_cast hn.symm
    rw [C40_zero cfg f ((C40_zero_iff f hf).1 hz), hn0]
    have hv : value (FP.zero : FP L P) = 0 := by unfold value FP.zero FP.fromBits; simp
    exact ⟨fun _ => ⟨_, rfl, by rw [hv]; simp⟩, fun h => absurd ⟨FP.zero, by rw [hv]; simp⟩ h⟩
  · have hb := Nat.pos_of_ne_zero h0
    obtain ⟨x1, x2⟩ := f64Exp2_range f hf
    have hbx : (f64Bits f : ℚ) * 2 ^ f64Exp2 f = (n.natAbs : ℚ) := by rw [← f64Magnitude_eq, hmag]
    -- the ideal raw magnitude
    have hex := exactOr_finish (L := L) (P := P) (q := n) (neg := decide (f64Negative f))
      (r := n.natAbs * 10 ^ P) (by
        rw [hsign]
        split <;> push_cast <;> field_simp) hm
    rw [tryFromF64_eq cfg f hf h0]
    by_cases hlt : n.natAbs < 2 ^ 128
    · rw [stages_int cfg hb (f64Bits_lt f) (by omega) (by omega) _ hbx hlt]
      obtain ⟨r1, r2⟩ := rescale_up cfg (P := P) (e := 0) hP (by norm_num) hlt (by omega)
      rw [zero_add, Int.toNat_natCast] at r1 r2
      by_cases hc : n.natAbs * 10 ^ P < 2 ^ 128 ∧ P < 39
      · rw [r1 hc.1 hc.2, ok_bind]
        exact hex
      · rw [r2 hc, err_bind]
        have hbig : ¬ ((n.natAbs * 10 ^ P : Nat) : Int) ≤ rawMax L := by
          have h1 := rawMax_lt L
          have hN0 : 0 < n.natAbs := by
            by_contra hz
            have hz : n.natAbs = 0 := by omega
            rw [hz] at hbx
            have hbq : (0 : ℚ) < f64Bits f := by exact_mod_cast hb
            have : (0 : ℚ) < f64Bits f * 2 ^ f64Exp2 f := by positivity
            rw [hbx] at this
            simp at this
          have h2 : 2 ^ 128 ≤ n.natAbs * 10 ^ P := by
            by_contra hn
            apply hc
            refine ⟨by omega, ?_⟩
            by_contra h39
            have h3 : 10 ^ 39 ≤ 10 ^ P := Nat.pow_le_pow_right (by norm_num) (not_lt.1 h39)
            have h4 : 10 ^ P ≤ n.natAbs * 10 ^ P := Nat.le_mul_of_pos_left _ hN0
            have h5 : (2 : Nat) ^ 128 < 10 ^ 39 := by norm_num
            omega
          have h3 : (2 : Int) ^ 128 ≤ ((n.natAbs * 10 ^ P : Nat) : Int) := by exact_mod_cast h2
          have h4 : (2 : Int) ^ 128 = 2 * 2 ^ 127 := by norm_num
          have h5 : (0 : Int) < 2 ^ 127 := by positivity
          omega
        rw [finish_big hbig] at hex
        exact hex
    · -- too big for the 128-bit significand: the number is at least `2^128`
      have hx0 : 0 ≤ f64Exp2 f := by
        by_contra hc
        have h1 : (2 : ℚ) ^ f64Exp2 f ≤ 1 := zpow_le_one_of_nonpos₀ (by norm_num) (by omega)
        have h2 : (f64Bits f : ℚ) ≤ 2 ^ 53 := by exact_mod_cast (f64Bits_lt f).le
        have h3 : (2 : ℚ) ^ 128 ≤ n.natAbs := by exact_mod_cast not_lt.1 hlt
        have h4 : (0 : ℚ) ≤ f64Bits f := by positivity
        have h5 : (f64Bits f : ℚ) * 2 ^ f64Exp2 f ≤ 2 ^ 53 := by nlinarith
        rw [hbx] at h5
        have : (2 : ℚ) ^ 53 < 2 ^ 128 := by norm_num
        linarith
      obtain ⟨c, e, y, s1, s2, s3, s4, s5, s6, s7, s8⟩ := stages_scaled cfg hb (f64Bits_lt f)
        (x := f64Exp2 f) (by omega) (by omega)
      have he := s6 hx0
      have hy : (c : ℚ) * 10 ^ e = y := by
        rcases s8 with h | h
        · exact h
        · omega
      have h3 : (2 : ℚ) ^ 128 ≤ n.natAbs := by exact_mod_cast not_lt.1 hlt
      have hylb : (2 : ℚ) ^ 127 ≤ y := by
        have h4 := s7.2
        rw [hbx] at h4
        have h5 : (1 : ℚ) / 2 ≤ 1 - (2200 : Nat) * stepErr := by unfold stepErr; norm_num
        have h6 : (0 : ℚ) ≤ n.natAbs := by positivity
        have h7 : (2 : ℚ) ^ 128 = 2 * 2 ^ 127 := by norm_num
        refine le_trans ?_ (le_trans (mul_le_mul_of_nonneg_left h5 h6) h4)
        linarith
      obtain ⟨k, rfl⟩ : ∃ k : Nat, e = k := ⟨e.toNat, by omega⟩
      obtain ⟨r1, r2⟩ := rescale_up cfg (P := P) (e := k) hP (by omega) s3 (by omega)
      have hbig : ∀ m : Nat, (2 : ℚ) ^ 127 ≤ m → ¬ (m : Int) ≤ rawMax L := by
        intro m hmq
        have h1 := rawMax_lt L
        have h2 : (2 : Int) ^ 127 ≤ m := by exact_mod_cast hmq
        omega
      have hone : (1 : ℚ) ≤ 10 ^ P := one_le_pow₀ (by norm_num)
      rw [finish_big (hbig _ (by
        push_cast
        have h7 : (2 : ℚ) ^ 128 = 2 * 2 ^ 127 := by norm_num
        have h8 : (0 : ℚ) < 2 ^ 127 := by positivity
        nlinarith))] at hex
      rw [s1]
      by_cases hc : c * 10 ^ ((k : Int) + P).toNat < 2 ^ 128 ∧ ((k : Int) + P).toNat < 39
      · rw [r1 hc.1 hc.2, ok_bind, finish_big (hbig _ _)]
        · exact hex
        · rw [show ((k : Int) + P).toNat = k + P by omega]
          push_cast
          rw [pow_add, ← mul_assoc, ← zpow_natCast (10 : ℚ) k, hy]
          nlinarith
      · rw [r2 hc, err_bind]
        exact hex

example := C43_integer_partial (L := .i64) (P := 9) debugCfg (by norm_num) 0xC059000000000000
  (by decide +kernel) (-100) (by decide +kernel) (by decide +kernel)

/-- C43 is false for `MIN`: `-32768.0` is representable with zero digits but rejected. -/
theorem C43_integer_false :
    f64Value 0xC0E0000000000000 = -32768 ∧
    value (⟨-32768⟩ : FP .i16 0) = -32768 ∧
    (FP.tryFromF64 debugCfg 0xC0E0000000000000 : Res ConvErr (FP .i16 0)) =
      .err ⟨"too big number"⟩ := by
  refine ⟨?_, ?_, by decide +kernel⟩
  · have h1 : f64Negative 0xC0E0000000000000 := by decide +kernel
    have h2 : f64Exponent 0xC0E0000000000000 = 1038 := by decide +kernel
    have h3 : f64Mantissa 0xC0E0000000000000 = 0 := by decide +kernel
    unfold f64Value f64Magnitude
    rw [if_pos h1, h2, h3]
    norm_num
  · have : (⟨-32768⟩ : FP .i16 0).inner.toInt = -32768 := by decide +kernel
    unfold value
    rw [this]; norm_num

/-- C43: fractions `n/2^k` whose decimal expansion is short (`|n|·5^k < 2^52` and `k ≤ P`) are
converted exactly too. -/
theorem C43_dyadic_partial (cfg : Cfg) (hP : P ≤ 10 ^ 9) (f : BitVec 64) (hf : f64Finite f)
    (n : Int) (k : Nat) (hn : f64Value f = n / 2 ^ k) (hk : k ≤ P) (hs : n.natAbs * 5 ^ k < 2 ^ 52)
    (hm : f64Value f ≠ minValue L P) :
    ExactOr (⟨"too big number"⟩ : ConvErr) (FP.tryFromF64 cfg f : Res ConvErr (FP L P))
      (f64Value f) := by
  induction k generalizing n with
  | zero =>
    have h1 : f64Value f = n := by rw [hn]; simp
    rw [h1] at hm ⊢
    exact C43_integer_partial cfg hP f hf n h1 hm
  | succ k ih =>
    by_cases hev : n % 2 = 0
    · obtain ⟨m, rfl⟩ : ∃ m, n = 2 * m := ⟨n / 2, by omega⟩
      refine ih m ?_ (by omega) ?_
      · rw [hn, pow_succ]; push_cast; field_simp
      · rw [Int.natAbs_mul] at hs
        refine lt_of_le_of_lt ?_ hs
        have : 5 ^ k ≤ 5 ^ (k + 1) := Nat.pow_le_pow_right (by norm_num) (by omega)
        have h2 : (2 : Int).natAbs = 2 := rfl
        rw [h2]
        exact Nat.mul_le_mul (by omega) this
    · have hmag : f64Magnitude f = (n.natAbs : ℚ) / 2 ^ (k + 1) := by
        rw [natAbs_value hn, abs_div, Nat.cast_natAbs, Int.cast_abs,
          abs_of_pos (show (0 : ℚ) < 2 ^ (k + 1) by positivity)]
      have hsign : f64Value f = (if decide (f64Negative f) = true then
          -((n.natAbs : ℚ)) else n.natAbs) / 2 ^ (k + 1) := by
        unfold f64Value
        rw [hmag]
        by_cases h : f64Negative f <;> simp [h, neg_div]
      have hna : n.natAbs % 2 = 1 := by omega
      have h0 : f64Bits f ≠ 0 := by
        intro h0
        rw [f64Magnitude_eq, h0] at hmag
        have : (n.natAbs : ℚ) / 2 ^ (k + 1) = 0 := by rw [← hmag]; simp
        rw [div_eq_zero_iff] at this
        rcases this with h | h
        · have : n.natAbs = 0 := by exact_mod_cast h
          omega
        · exact absurd h (by positivity)
      have hb := Nat.pos_of_ne_zero h0
      obtain ⟨x1, x2⟩ := f64Exp2_range f hf
      rw [f64Magnitude_eq] at hmag
      -- `b·2^x = c/2^(k+1)` with `c` odd
      have hxneg : f64Exp2 f ≤ -((k + 1 : Nat) : Int) := by
        by_contra hc
        obtain ⟨j, hj⟩ : ∃ j : Nat, f64Exp2 f + (k + 1 : Nat) = (j : Int) + 1 :=
          ⟨(f64Exp2 f + (k + 1 : Nat) - 1).toNat, by omega⟩
        have h1 : (f64Bits f : ℚ) * 2 ^ (f64Exp2 f + (k + 1 : Nat)) = n.natAbs := by
          rw [zpow_add₀ (by norm_num), zpow_natCast, ← mul_assoc, hmag]
          field_simp
        rw [hj, show (j : Int) + 1 = ((j + 1 : Nat) : Int) by push_cast; rfl, zpow_natCast] at h1
        have h2 : f64Bits f * 2 ^ (j + 1) = n.natAbs := by exact_mod_cast h1
        rw [pow_succ, ← mul_assoc] at h2
        omega
      obtain ⟨j, hj⟩ : ∃ j : Nat, f64Exp2 f = -(((k + 1) + j : Nat) : Int) :=
        ⟨(-f64Exp2 f).toNat - (k + 1), by omega⟩
      have hbits : f64Bits f = n.natAbs * 2 ^ j := by
        rw [hj, zpow_neg, zpow_natCast, pow_add, ← div_eq_mul_inv,
          div_eq_div_iff (by positivity) (by positivity)] at hmag
        have h1 : f64Bits f * 2 ^ (k + 1) = n.natAbs * (2 ^ (k + 1) * 2 ^ j) := by
          exact_mod_cast hmag
        have h2 : f64Bits f * 2 ^ (k + 1) = n.natAbs * 2 ^ j * 2 ^ (k + 1) := by rw [h1]; ring
        exact Nat.eq_of_mul_eq_mul_right (by positivity) h2
      have hdiv : f64Bits f / 2 ^ j = n.natAbs := by
        rw [hbits, Nat.mul_div_cancel _ (by positivity)]
      have h52 : (2 : Nat) ^ 52 < 2 ^ 128 := Nat.pow_lt_pow_right (by norm_num) (by norm_num)
      have hst : stages cfg P (f64Bits f) (f64Exp2 f) =
          rescale cfg P (n.natAbs * 5 ^ (k + 1)) (-((k + 1 : Nat) : Int)) := by
        unfold stages
        rw [hj, neg_neg, scaleDown_dyadic cfg hb (f64Bits_lt f) (by omega) (x := j) (by omega)
          ⟨n.natAbs, by rw [hbits, mul_comm]⟩ (by rw [hdiv]; exact hna)
          (by rw [hdiv, show k + 1 + j - j = k + 1 by omega]; omega), ok_bind, hdiv,
          show k + 1 + j - j = k + 1 by omega]
        dsimp only
        unfold scaleUp
        rw [neg_zero, Int.toNat_zero]
        dsimp only
        rw [if_neg (by omega), ok_bind, trim_skip cfg (fun h => absurd h.2 (not_le.2 hs)), ok_bind]
      rw [tryFromF64_eq cfg f hf h0, hst]
      obtain ⟨r1, r2⟩ := rescale_up cfg (P := P) (e := -((k + 1 : Nat) : Int)) hP (by omega)
        (lt_trans hs h52) (by omega)
      rw [show (-((k + 1 : Nat) : Int) + P).toNat = P - (k + 1) by omega] at r1 r2
      have hex := exactOr_finish (L := L) (P := P) (q := f64Value f)
        (neg := decide (f64Negative f)) (r := n.natAbs * 5 ^ (k + 1) * 10 ^ (P - (k + 1))) (by
          have h10 : (10 : ℚ) ^ P = 10 ^ (P - (k + 1)) * (2 ^ (k + 1) * 5 ^ (k + 1)) := by
            rw [← mul_pow, show (2 : ℚ) * 5 = 10 by norm_num, ← pow_add]
            congr 1; omega
          rw [hsign, h10]
          push_cast
          split <;> field_simp) hm
      by_cases hc : n.natAbs * 5 ^ (k + 1) * 10 ^ (P - (k + 1)) < 2 ^ 128 ∧ P - (k + 1) < 39
      · rw [r1 hc.1 hc.2, ok_bind]
        exact hex
      · rw [r2 hc, err_bind]
        have hbig : ¬ ((n.natAbs * 5 ^ (k + 1) * 10 ^ (P - (k + 1)) : Nat) : Int) ≤ rawMax L := by
          have h1 := rawMax_lt L
          have h2 : 2 ^ 128 ≤ n.natAbs * 5 ^ (k + 1) * 10 ^ (P - (k + 1)) := by
            by_contra hn
            apply hc
            refine ⟨by omega, ?_⟩
            by_contra h39
            have h3 : 10 ^ 39 ≤ 10 ^ (P - (k + 1)) :=
              Nat.pow_le_pow_right (by norm_num) (not_lt.1 h39)
            have h4 : 10 ^ (P - (k + 1)) ≤ n.natAbs * 5 ^ (k + 1) * 10 ^ (P - (k + 1)) :=
              Nat.le_mul_of_pos_left _ (Nat.mul_pos (by omega) (by positivity))
            have h5 : (2 : Nat) ^ 128 < 10 ^ 39 := by norm_num
            omega
          have h3 : (2 : Int) ^ 128 ≤
              ((n.natAbs * 5 ^ (k + 1) * 10 ^ (P - (k + 1)) : Nat) : Int) := by exact_mod_cast h2
          have h4 : (2 : Int) ^ 128 = 2 * 2 ^ 127 := by norm_num
          have h5 : (0 : Int) < 2 ^ 127 := by positivity
          omega
        rw [finish_big hbig] at hex
        exact hex

example := C43_dyadic_partial (L := .i64) (P := 9) debugCfg (by norm_num) 0x40FE240C00000000
  (by decide) 493827 2 (by
    unfold f64Value f64Magnitude
    rw [if_neg (by decide), show f64Exponent 0x40FE240C00000000 = 1039 by decide,
      show f64Mantissa 0x40FE240C00000000 = 3980283632156672 by decide]
    norm_num) (by norm_num) (by norm_num) (by
    unfold f64Value f64Magnitude minValue rawMin
    rw [if_neg (by decide), show f64Exponent 0x40FE240C00000000 = 1039 by decide,
      show f64Mantissa 0x40FE240C00000000 = 3980283632156672 by decide]
    norm_num [Layout.bits])

example : (FP.tryFromF64 debugCfg 0x40FE240C00000000 : Res ConvErr (FP .i64 9)) =
    .ok ⟨123456750000000⟩ := by decide +kernel

/-! ## C44 -/

theorem Approximates.bound {Q : ℚ} {r : Nat} (hQ : 0 ≤ Q) (h : Approximates Q r) :
    |(r : ℚ) - Q| ≤ 5 / 9 + 1234 / 10 ^ 18 * Q := by
  obtain ⟨Y, h1, h2, h3⟩ := h
  have ht := tiny_lt
  have h4 : Q - Y ≤ 1 / 10 ^ 34 * Q := by nlinarith
  have e52 : (2 : ℚ) ^ 52 = 4503599627370496 := by norm_num
  rw [abs_le]
  rcases h3 with ⟨a, b⟩ | ⟨u, a, b, c, d⟩ | ⟨u, a, b, c, d, e⟩
  · constructor <;> linarith
  · rw [e52] at b
    constructor <;> linarith
  · rw [e52] at c
    constructor <;> linarith

theorem Approximates.small {Q : ℚ} {r : Nat} (hQ : 0 ≤ Q) (hs : Q < 2 ^ 52)
    (h : Approximates Q r) : Q - 489 / 1000 ≤ r ∧ (r : ℚ) ≤ Q + 6112 / 10000 := by
  obtain ⟨Y, h1, h2, h3⟩ := h
  have ht := tiny_lt
  have h4 : Q - Y ≤ 1 / 10 ^ 34 * Q := by nlinarith
  have e52 : (2 : ℚ) ^ 52 = 4503599627370496 := by norm_num
  rw [e52] at hs
  rcases h3 with ⟨a, b⟩ | ⟨u, a, b, c, d⟩ | ⟨u, a, b, c, d, e⟩
  · constructor <;> linarith
  · rw [e52] at b
    exfalso
    linarith
  · constructor <;> linarith

/-- What a successful conversion returns. -/
theorem tryFromF64_ok (cfg : Cfg) (hP : P ≤ 10 ^ 9) (f : BitVec 64) (x : FP L P)
    (h : FP.tryFromF64 cfg f = .ok x) :
    ∃ r : Nat, Approximates (f64Magnitude f * 10 ^ P) r ∧
      value x = (if f64Negative f then -(r : ℚ) else r) / 10 ^ P := by
  have hf : f64Finite f := by
    by_contra hn
    rw [C40_not_finite cfg f hn] at h
    cases h
  obtain ⟨r, h1, h2⟩ := tryFromF64_spec cfg L f hf hP
  rw [h2] at h
  have hr : (r : Int) ≤ rawMax L := by
    by_contra hn
    rw [finish_big hn] at h
    cases h
  obtain ⟨a1, a2⟩ := value_finish (P := P) (decide (f64Negative f)) hr
  rw [a1] at h
  cases h
  refine ⟨r, h1, ?_⟩
  rw [a2]
  by_cases hn : f64Negative f <;> simp [hn]

theorem magnitude_nonneg (f : BitVec 64) : 0 ≤ f64Magnitude f := by
  rw [f64Magnitude_eq]; positivity

theorem abs_f64Value (f : BitVec 64) : |f64Value f| = f64Magnitude f := (natAbs_value rfl).symm

/-- The distance between a result and the argument is that of the magnitudes. -/
theorem dist_eq (f : BitVec 64) (r : Nat) :
    |(if f64Negative f then -(r : ℚ) else r) / 10 ^ P - f64Value f| =
      |(r : ℚ) - f64Magnitude f * 10 ^ P| / 10 ^ P := by
  have hp : (0 : ℚ) < 10 ^ P := by positivity
  have e : |(r : ℚ) - f64Magnitude f * 10 ^ P| / 10 ^ P = |(r : ℚ) / 10 ^ P - f64Magnitude f| := by
    rw [← abs_of_pos hp, ← abs_div, abs_of_pos hp, sub_div, mul_div_cancel_right₀ _ hp.ne']
  rw [e]
  unfold f64Value
  by_cases hn : f64Negative f
  · rw [if_pos hn, if_pos hn, neg_div, ← neg_sub', abs_neg, sub_eq_add_neg]
  · rw [if_neg hn, if_neg hn]

/-- C44: the error of a successful conversion is at most `5/9` of the precision plus
`1.234·10^-15` times the argument. -/
theorem C44_error_bound (cfg : Cfg) (hP : P ≤ 10 ^ 9) (f : BitVec 64) (x : FP L P)
    (h : FP.tryFromF64 cfg f = .ok x) :
    |value x - f64Value f| ≤ 5 / 9 / 10 ^ P + 1234 / 10 ^ 18 * |f64Value f| := by
  have hp : (0 : ℚ) < 10 ^ P := by positivity
  obtain ⟨r, h1, h2⟩ := tryFromF64_ok cfg hP f x h
  have hb := h1.bound (mul_nonneg (magnitude_nonneg f) hp.le)
  rw [h2, dist_eq, abs_f64Value, div_le_iff₀ hp]
  calc _ ≤ _ := hb
    _ = _ := by field_simp

example := C44_error_bound (L := .i64) (P := 9) debugCfg (by norm_num) 0x402AD70A3D70A3D7 ⟨13420000000⟩
  (by decide +kernel)

/-- C44, small numbers: below `2^52` raw units the error is at most `0.6112` of the precision. -/
theorem C44_error_bound_small (cfg : Cfg) (hP : P ≤ 10 ^ 9) (f : BitVec 64) (x : FP L P)
    (h : FP.tryFromF64 cfg f = .ok x) (hs : |f64Value f| * 10 ^ P < 2 ^ 52) :
    |value x - f64Value f| ≤ 6112 / 10000 / 10 ^ P := by
  have hp : (0 : ℚ) < 10 ^ P := by positivity
  obtain ⟨r, h1, h2⟩ := tryFromF64_ok cfg hP f x h
  rw [abs_f64Value] at hs
  obtain ⟨a, b⟩ := h1.small (mul_nonneg (magnitude_nonneg f) hp.le) hs
  rw [h2, dist_eq]
  refine div_le_div_of_nonneg_right ?_ hp.le
  rw [abs_le]
  constructor <;> linarith

example := C44_error_bound_small (L := .i64) (P := 9) debugCfg (by norm_num) 0x402AD70A3D70A3D7
  ⟨13420000000⟩ (by decide +kernel) (by decide +kernel)

/-- C44: numbers in range by more than that error are accepted. -/
theorem C44_accepts (cfg : Cfg) (hP : P ≤ 10 ^ 9) (f : BitVec 64) (hf : f64Finite f)
    (h : |f64Value f| + (5 / 9 / 10 ^ P + 1234 / 10 ^ 18 * |f64Value f|) ≤ maxValue L P) :
    ∃ x : FP L P, FP.tryFromF64 cfg f = .ok x := by
  have hp : (0 : ℚ) < 10 ^ P := by positivity
  obtain ⟨r, h1, h2⟩ := tryFromF64_spec cfg L f hf hP
  have hb := h1.bound (mul_nonneg (magnitude_nonneg f) hp.le)
  rw [abs_le] at hb
  rw [abs_f64Value] at h
  have hr : (r : Int) ≤ rawMax L := by
    unfold maxValue at h
    rw [le_div_iff₀ hp] at h
    have h3 : (r : ℚ) ≤ rawMax L := by
      have : (f64Magnitude f + (5 / 9 / 10 ^ P + 1234 / 10 ^ 18 * f64Magnitude f)) * 10 ^ P =
          f64Magnitude f * 10 ^ P + (5 / 9 + 1234 / 10 ^ 18 * (f64Magnitude f * 10 ^ P)) := by
        field_simp
      linarith [hb.2]
    exact_mod_cast h3
  exact ⟨_, by rw [h2, (value_finish (P := P) _ hr).1]⟩

example := C44_accepts (L := .i64) (P := 9) debugCfg (by norm_num) 0x402AD70A3D70A3D7 (by decide +kernel)
  (by decide +kernel)

/-- C44: numbers out of range by more than that error are rejected. -/
theorem C44_rejects (cfg : Cfg) (hP : P ≤ 10 ^ 9) (f : BitVec 64) (hf : f64Finite f)
    (h : maxValue L P < |f64Value f| - (5 / 9 / 10 ^ P + 1234 / 10 ^ 18 * |f64Value f|)) :
    (FP.tryFromF64 cfg f : Res ConvErr (FP L P)) = .err ⟨"too big number"⟩ := by
  have hp : (0 : ℚ) < 10 ^ P := by positivity
  obtain ⟨r, h1, h2⟩ := tryFromF64_spec cfg L f hf hP
  have hb := h1.bound (mul_nonneg (magnitude_nonneg f) hp.le)
  rw [abs_le] at hb
  rw [abs_f64Value] at h
  rw [h2, finish_big]
  intro hr
  unfold maxValue at h
  rw [div_lt_iff₀ hp] at h
  have h3 : (r : ℚ) ≤ rawMax L := by exact_mod_cast hr
  have : (f64Magnitude f - (5 / 9 / 10 ^ P + 1234 / 10 ^ 18 * f64Magnitude f)) * 10 ^ P =
      f64Magnitude f * 10 ^ P - (5 / 9 + 1234 / 10 ^ 18 * (f64Magnitude f * 10 ^ P)) := by
    field_simp
  linarith [hb.1]

example : (FP.tryFromF64 debugCfg 0x426D1A94A2000000 : Res ConvErr (FP .i64 9)) =
    .err ⟨"too big number"⟩ :=
  C44_rejects debugCfg (by norm_num) _ (by decide) (by
    unfold maxValue rawMax
    rw [abs_f64Value]
    unfold f64Magnitude
    rw [show f64Exponent 0x426D1A94A2000000 = 1062 by decide,
      show f64Mantissa 0x426D1A94A2000000 = 3688400372629504 by decide]
    norm_num [Layout.bits])

-- 13.42 and 1e300
example : (FP.tryFromF64 debugCfg 0x402AD70A3D70A3D7 : Res ConvErr (FP .i64 9)) =
      .ok ⟨13420000000⟩ ∧
    (FP.tryFromF64 debugCfg 0x7E37E43C8800759C : Res ConvErr (FP .i64 9)) =
      .err ⟨"too big number"⟩ := by decide +kernel

/-! ## C45 -/

/-- C45 (partial).  If some value of the type lies within `0.388` of the precision from the argument
(and is below `2^52` raw units in magnitude, and is not `MIN`), it is the result; it is then the
nearest one. -/
theorem C45_nearest_partial (cfg : Cfg) (hP : P ≤ 10 ^ 9) (f : BitVec 64) (hf : f64Finite f)
    (y : FP L P) (hy : |value y| * 10 ^ P < 2 ^ 52) (hm : value y ≠ minValue L P)
    (hd : |f64Value f - value y| ≤ 388 / 1000 / 10 ^ P) :
    FP.tryFromF64 cfg f = .ok y := by
  have hp : (0 : ℚ) < 10 ^ P := by positivity
  obtain ⟨r, h1, h2⟩ := tryFromF64_spec cfg L f hf hP
  obtain ⟨z, hz⟩ : ∃ z : Int, z = y.inner.toInt := ⟨_, rfl⟩
  have hv : value y = z / 10 ^ P := by unfold value; rw [hz]
  have hzQ : |f64Value f * 10 ^ P - z| ≤ 388 / 1000 := by
    have e : f64Value f - value y = (f64Value f * 10 ^ P - z) / 10 ^ P := by rw [hv]; field_simp
    rw [e, abs_div, abs_of_pos hp, div_le_div_iff_of_pos_right hp] at hd
    exact hd
  have hza : |value y| * 10 ^ P = |z| := by
    rw [hv, abs_div, abs_of_pos hp, div_mul_cancel₀ _ hp.ne']
    push_cast; rfl
  rw [hza] at hy
  have hz52 : |z| ≤ 2 ^ 52 - 1 := by
    have : |z| < 2 ^ 52 := by exact_mod_cast hy
    omega
  have hz52' : ((|z| : Int) : ℚ) ≤ 2 ^ 52 - 1 := by exact_mod_cast hz52
  have hmz : |f64Magnitude f * 10 ^ P - (|z| : Int)| ≤ 388 / 1000 := by
    have e : f64Magnitude f * 10 ^ P = |f64Value f * 10 ^ P| := by
      rw [abs_mul, abs_of_pos hp, abs_f64Value]
    rw [e, Int.cast_abs]
    exact le_trans (abs_abs_sub_abs_le _ _) hzQ
  rw [abs_le] at hmz hzQ
  obtain ⟨a, b⟩ := h1.small (mul_nonneg (magnitude_nonneg f) hp.le) (by linarith)
  have hr : (r : Int) = |z| := by
    have u1 : ((r : Int) : ℚ) < ((|z| + 1 : Int) : ℚ) := by push_cast at *; linarith
    have u2 : ((|z| - 1 : Int) : ℚ) < ((r : Int) : ℚ) := by push_cast at *; linarith
    have u1' : (r : Int) < |z| + 1 := by exact_mod_cast u1
    have u2' : |z| - 1 < (r : Int) := by exact_mod_cast u2
    omega
  have hfit : |z| ≤ rawMax L := by
    have h3 := toInt_fits y.inner
    rw [fits_half, ← hz] at h3
    have h4 : z ≠ -half L := by
      intro h
      apply hm
      rw [hv, h, minValue, rawMin_half]
    rw [rawMax_half]
    rw [abs_le]
    omega
  rw [h2, (value_finish (P := P) _ (by rw [hr]; exact hfit)).1]
  congr 1
  have hsgn : (if decide (f64Negative f) = true then -(r : Int) else r) = z := by
    rw [hr]
    have hvz : f64Value f = if f64Negative f then -f64Magnitude f else f64Magnitude f := rfl
    have hm0 := mul_nonneg (magnitude_nonneg f) hp.le
    by_cases hn : f64Negative f
    · rw [if_pos (by simpa using hn)]
      rw [hvz, if_pos hn, neg_mul] at hzQ
      have : z ≤ 0 := by
        by_contra hc
        have : (1 : ℚ) ≤ z := by exact_mod_cast (by omega : 1 ≤ z)
        linarith
      rw [abs_of_nonpos this, neg_neg]
    · rw [if_neg (by simpa using hn)]
      rw [hvz, if_neg hn] at hzQ
      have : 0 ≤ z := by
        by_contra hc
        have : (z : ℚ) ≤ -1 := by exact_mod_cast (by omega : z ≤ -1)
        linarith
      exact abs_of_nonneg this
  rw [hsgn, hz]
  ext1
  exact ofInt_toInt' y.inner

example := C45_nearest_partial (L := .i64) (P := 9) debugCfg (by norm_num) 0x3FB999999999999A
  (by decide +kernel) ⟨100000000⟩ (by decide +kernel) (by decide +kernel) (by decide +kernel)

/-- C45 is false: `0.45` becomes `1` with zero digits, though `0` is closer. -/
theorem C45_nearest_false :
    (FP.tryFromF64 debugCfg 0x3FDCCCCCCCCCCCCD : Res ConvErr (FP .i64 0)) = .ok ⟨1⟩ ∧
    |f64Value 0x3FDCCCCCCCCCCCCD - value (⟨0⟩ : FP .i64 0)| <
      |f64Value 0x3FDCCCCCCCCCCCCD - value (⟨1⟩ : FP .i64 0)| := by
  refine ⟨by decide +kernel, ?_⟩
  have h1 : ¬ f64Negative 0x3FDCCCCCCCCCCCCD := by decide +kernel
  have h2 : f64Exponent 0x3FDCCCCCCCCCCCCD = 1021 := by decide +kernel
  have h3 : f64Mantissa 0x3FDCCCCCCCCCCCCD = 3602879701896397 := by decide +kernel
  have h4 : (⟨0⟩ : FP .i64 0).inner.toInt = 0 := by decide +kernel
  have h5 : (⟨1⟩ : FP .i64 0).inner.toInt = 1 := by decide +kernel
  unfold f64Value f64Magnitude value
  rw [if_neg h1, h2, h3, h4, h5]
  norm_num [abs_of_pos, abs_of_neg]

-- 0.1 with 9 digits: the hypotheses of `C45_nearest_partial` hold
example : f64Finite 0x3FB999999999999A ∧
    |f64Value 0x3FB999999999999A - value (⟨100000000⟩ : FP .i64 9)| ≤ 388 / 1000 / 10 ^ 9 := by
  refine ⟨by decide +kernel, ?_⟩
  have h1 : ¬ f64Negative 0x3FB999999999999A := by decide +kernel
  have h2 : f64Exponent 0x3FB999999999999A = 1019 := by decide +kernel
  have h3 : f64Mantissa 0x3FB999999999999A = 2702159776422298 := by decide +kernel
  have h4 : (⟨100000000⟩ : FP .i64 9).inner.toInt = 100000000 := by decide +kernel
  unfold f64Value f64Magnitude value
  rw [if_neg h1, h2, h3, h4]
  norm_num [abs_of_pos]

end Fixnum
