import Verif.FloatClosed
import Verif.Props.FloatOrder

/-! # Property C103: the conversion from `f64` as an explicit function -/

namespace Fixnum

open Res Spec F64

variable {L : Layout} {P : Nat} {ε : Type}

/-- C103: for every finite number other than zero.  Its absolute value is cut to 52 bits of decimal
significand and then rounded to the precision, both with the threshold 4/9; then the range is checked
and the sign applied.  What the code loses while it scales by powers of two never shows. -/
theorem C103_closed_form (cfg : Cfg) (hP : P ≤ 38) (f : BitVec 64) (hf : f64Finite f)
    (h0 : f64Value f ≠ 0) (t : ℚ) (ht : DecimalCut |f64Value f| t) :
    (round49 (t * 10 ^ P) ≤ rawMax L → ∃ x : FP L P, FP.tryFromF64 cfg f = .ok x ∧
        value x = (if f64Value f < 0 then -1 else 1) * round49 (t * 10 ^ P) / 10 ^ P) ∧
      (rawMax L < round49 (t * 10 ^ P) →
        (FP.tryFromF64 cfg f : Res ConvErr (FP L P)) = .err ⟨"too big number"⟩) := by
  have hm := magnitude_nonneg f
  have hb : f64Bits f ≠ 0 := by
    intro hc
    rw [f64Bits_zero_iff] at hc
    apply h0
    unfold f64Value
    rw [hc]
    simp
  have hm0 : 0 < f64Magnitude f :=
    lt_of_le_of_ne hm fun hc => hb ((f64Bits_zero_iff f).2 hc.symm)
  obtain ⟨r, ⟨y, t', h1, h2, h3, h4, h5⟩, hr⟩ := tryFromF64_exact (P := P) cfg L f hf hb (by omega)
  have hneg : f64Value f < 0 ↔ f64Negative f := by
    unfold f64Value
    split
    · exact ⟨fun _ => by assumption, fun _ => by linarith⟩
    · exact ⟨fun h => by linarith, fun h => absurd h (by assumption)⟩
  rw [abs_f64Value] at ht
  have hhalf : f64Magnitude f * (3 / 4) ≤ y := by
    have ht := tiny_113
    have : f64Magnitude f * (3 / 4) ≤ f64Magnitude f * (1 - tiny) :=
      mul_le_mul_of_nonneg_left (by
        have : (1 : ℚ) / 2 ^ 113 ≤ 1 / 2 := by norm_num
        linarith) hm
    linarith
  have hy0 : 0 < y := by linarith
  -- above all ranges, or the same number
  have key : (rawMax L < round49 (t' * 10 ^ P) ∧ rawMax L < round49 (t * 10 ^ P)) ∨
      round49 (t' * 10 ^ P) = round49 (t * 10 ^ P) := by
    by_cases hbig : (2 : ℚ) ^ 128 ≤ f64Magnitude f
    · exact .inl ⟨cut_big (by norm_num at hbig ⊢; linarith) h4,
        cut_big (by norm_num at hbig ⊢; linarith) ht⟩
    right
    by_cases hsmall : f64Magnitude f ≤ 2 ^ 52 / 10 ^ 55
    · rw [cut_tiny hP hm0 hsmall ht, cut_tiny hP hy0 (h1.trans hsmall) h4]
    rw [not_le] at hbig hsmall
    have hE : f64Exponent f ≠ 0 := by
      intro hc
      have hM : (f64Mantissa f : ℚ) < 2 ^ 52 := by exact_mod_cast f64Mantissa_lt f
      have h6 : f64Magnitude f < 2 ^ 52 * 2 ^ (-1074 : ℤ) := by
        unfold f64Magnitude
        rw [if_pos hc]
        exact mul_lt_mul_of_pos_right hM (by positivity)
      have h7 : (2 : ℚ) ^ 52 * 2 ^ (-1074 : ℤ) ≤ 2 ^ 52 * 2 ^ (-200 : ℤ) :=
        mul_le_mul_of_nonneg_left (zpow_le_zpow_right₀ (by norm_num) (by norm_num)) (by positivity)
      have h8 : (2 : ℚ) ^ 52 * 2 ^ (-200 : ℤ) ≤ 2 ^ 52 / 10 ^ 55 := by norm_num
      exact absurd (h6.trans_le (h7.trans h8)) (not_lt.2 hsmall.le)
    have hb52 : 2 ^ 52 ≤ f64Bits f := by
      unfold f64Bits
      rw [if_neg hE]
      omega
    have hlt := f64Bits_lt f
    rw [cut_stable hb52 hlt (f64Magnitude_eq f) hsmall.le h1 h2 ?_ h4 ht]
    intro hx
    apply h3
    rw [f64Magnitude_eq] at hbig ⊢
    by_cases hx0 : 0 ≤ f64Exp2 f
    · obtain ⟨e, he⟩ := Int.eq_ofNat_of_zero_le hx0
      rw [he, zpow_natCast] at hbig ⊢
      refine ⟨f64Bits f * 2 ^ e, 0, by push_cast; ring, ?_⟩
      rw [pow_zero, mul_one]
      exact_mod_cast hbig
    · obtain ⟨e, he⟩ : ∃ e : Nat, f64Exp2 f = -(e : Int) := ⟨(-f64Exp2 f).toNat, by omega⟩
      refine ⟨f64Bits f, e, by rw [he, zpow_neg, zpow_natCast, div_eq_mul_inv], ?_⟩
      calc f64Bits f * 5 ^ e < 2 ^ 53 * 5 ^ e := Nat.mul_lt_mul_of_pos_right hlt (by positivity)
        _ ≤ 2 ^ 53 * 5 ^ 30 := Nat.mul_le_mul_left _ (Nat.pow_le_pow_right (by norm_num) (by omega))
        _ < 2 ^ 128 := by norm_num
  have hcase : ∀ n : Int, (r : Int) = n → (n ≤ rawMax L → ∃ x : FP L P, FP.tryFromF64 cfg f = .ok x ∧
      value x = (if f64Value f < 0 then -1 else 1) * n / 10 ^ P) ∧
      (rawMax L < n → (FP.tryFromF64 cfg f : Res ConvErr (FP L P)) = .err ⟨"too big number"⟩) := by
    intro n hn
    constructor
    · intro hle
      rw [← hn] at hle
      obtain ⟨x, hx⟩ := finish_of_le (P := P) (neg := decide (f64Negative f)) hle
      refine ⟨x, by rw [hr, hx], ?_⟩
      rw [(finish_ok hx).2, ← hn]
      by_cases hn : f64Negative f
      · rw [if_pos (hneg.2 hn), decide_eq_true hn, if_pos rfl]
        push_cast
        ring
      · rw [if_neg (fun h => hn (hneg.1 h)), decide_eq_false hn, if_neg (by simp)]
        push_cast
        ring
    · intro hlt
      rw [← hn] at hlt
      rw [hr, finish_big (by omega)]
  rcases key with ⟨k1, k2⟩ | key
  · refine ⟨fun hc => absurd hc (not_le.2 k2), fun _ => ?_⟩
    exact (hcase _ h5).2 k1
  · rw [key] at h5
    exact hcase _ h5

example := C103_closed_form (L := .i64) (P := 9) debugCfg (by decide) 0x3FB999999999999A
  (by decide +kernel) (by decide +kernel) (1 / 10)
  ⟨-16, by decide +kernel, by decide +kernel, by decide +kernel, by decide +kernel⟩

/-- C103: zero, of either sign, gives zero; what is not finite is rejected.  With
`C103_closed_form` this covers every `f64`. -/
theorem C103_rest (cfg : Cfg) (f : BitVec 64) :
    (f64Finite f → f64Value f = 0 → ∃ x : FP L P, FP.tryFromF64 cfg f = .ok x ∧ value x = 0) ∧
    (¬ f64Finite f →
      (FP.tryFromF64 cfg f : Res ConvErr (FP L P)) = .err ⟨"not finite"⟩) := by
  refine ⟨fun hf h0 => ?_, C40_not_finite cfg f⟩
  have hm : f64Magnitude f = 0 := by
    unfold f64Value at h0
    split at h0 <;> linarith
  have h := tryFromF64_zero (P := P) cfg L f hf ((f64Bits_zero_iff f).2 hm)
  obtain ⟨x, hx⟩ := finish_of_le (L := L) (P := P) (neg := decide (f64Negative f))
    (show ((0 : Nat) : Int) ≤ rawMax L by cases L <;> decide)
  refine ⟨x, by rw [h, hx], ?_⟩
  rw [(finish_ok hx).2]
  simp

example : f64Finite 0x8000000000000000 ∧ f64Value 0x8000000000000000 = 0 ∧
    ¬ f64Finite 0x7FF8000000000001 := by decide +kernel

/-- C103: the number decides: two `f64` with the same decimal cut are converted to the same, or both
rejected, on every type. -/
theorem C103_cut_decides (cfg cfg' : Cfg) (hP : P ≤ 38) (f g : BitVec 64) (hf : f64Finite f)
    (hg : f64Finite g) (h0 : 0 < f64Value f) (h0' : 0 < f64Value g) (t : ℚ)
    (ht : DecimalCut (f64Value f) t) (ht' : DecimalCut (f64Value g) t) :
    (FP.tryFromF64 cfg f : Res ConvErr (FP L P)) = FP.tryFromF64 cfg' g := by
  obtain ⟨a1, a2⟩ := C103_closed_form (L := L) cfg hP f hf h0.ne' t (by rwa [abs_of_pos h0])
  obtain ⟨b1, b2⟩ := C103_closed_form (L := L) cfg' hP g hg h0'.ne' t (by rwa [abs_of_pos h0'])
  by_cases h : round49 (t * 10 ^ P) ≤ rawMax L
  · obtain ⟨x, x1, x2⟩ := a1 h
    obtain ⟨y, y1, y2⟩ := b1 h
    rw [if_neg (not_lt.2 h0.le)] at x2
    rw [if_neg (not_lt.2 h0'.le)] at y2
    rw [x1, y1, value_inj (x2.trans y2.symm)]
  · rw [a2 (not_le.1 h), b2 (not_le.1 h)]

-- the two `f64` next to each other around 0.1 have the same cut
example : (FP.tryFromF64 debugCfg 0x3FB9999999999999 : Res ConvErr (FP .i128 18)) =
    FP.tryFromF64 releaseCfg 0x3FB999999999999A := by
  have h1 : f64Value 0x3FB9999999999999 = 7205759403792793 / 2 ^ 56 := by
    unfold f64Value f64Magnitude
    rw [if_neg (by decide), show f64Exponent 0x3FB9999999999999 = 1019 by decide,
      show f64Mantissa 0x3FB9999999999999 = 2702159776422297 by decide]
    norm_num
  have h2 : f64Value 0x3FB999999999999A = 7205759403792794 / 2 ^ 56 := by
    unfold f64Value f64Magnitude
    rw [if_neg (by decide), show f64Exponent 0x3FB999999999999A = 1019 by decide,
      show f64Mantissa 0x3FB999999999999A = 2702159776422298 by decide]
    norm_num
  refine C103_cut_decides debugCfg releaseCfg (by norm_num) _ _ (by decide) (by decide)
    (by rw [h1]; norm_num) (by rw [h2]; norm_num) (1 / 10) ?_ ?_
  · rw [h1]
    refine ⟨-16, by norm_num, .inr (by norm_num), by norm_num, ?_⟩
    unfold round49
    have : ⌈(7205759403792793 / 2 ^ 56 / 10 ^ (-16 : ℤ) - 4 / 9 : ℚ)⌉ = 1000000000000000 := by
      rw [Int.ceil_eq_iff]; norm_num
    rw [this]
    norm_num
  · rw [h2]
    refine ⟨-16, by norm_num, .inr (by norm_num), by norm_num, ?_⟩
    unfold round49
    have : ⌈(7205759403792794 / 2 ^ 56 / 10 ^ (-16 : ℤ) - 4 / 9 : ℚ)⌉ = 1000000000000000 := by
      rw [Int.ceil_eq_iff]; norm_num
    rw [this]
    norm_num

-- 0.1 as `f64` is 3602879701896397/2^55; `n·5^55` is above `2^128`, C64_closed_form does not apply
example : f64Finite 0x3FB999999999999A ∧ f64Value 0x3FB999999999999A = 3602879701896397 / 2 ^ 55 ∧
    ¬ 3602879701896397 * 5 ^ 55 < 2 ^ 128 ∧ DecimalCut (3602879701896397 / 2 ^ 55) (1 / 10) ∧
    round49 (1 / 10 * 10 ^ 9) = 100000000 ∧
    (FP.tryFromF64 debugCfg 0x3FB999999999999A : Res ConvErr (FP .i64 9)) = .ok ⟨100000000⟩ := by
  refine ⟨by decide, ?_, by norm_num, ?_, ?_, by decide +kernel⟩
  · unfold f64Value f64Magnitude
    rw [if_neg (by decide), show f64Exponent 0x3FB999999999999A = 1019 by decide,
      show f64Mantissa 0x3FB999999999999A = 2702159776422298 by decide]
    norm_num
  · refine ⟨-16, by norm_num, .inr (by norm_num), by norm_num, ?_⟩
    unfold round49
    have : ⌈(3602879701896397 / 2 ^ 55 / 10 ^ (-16 : ℤ) - 4 / 9 : ℚ)⌉ = 1000000000000000 := by
      rw [Int.ceil_eq_iff]; norm_num
    rw [this]
    norm_num
  · unfold round49
    rw [Int.ceil_eq_iff]
    norm_num

/-- C103: the build does not matter, nor the features: each `f64` is converted to the same, or rejected
with the same error, by all of them. -/
theorem C103_build (cfg cfg' : Cfg) (hP : P ≤ 38) (f : BitVec 64) :
    (FP.tryFromF64 cfg f : Res ConvErr (FP L P)) = FP.tryFromF64 cfg' f := by
  by_cases hf : f64Finite f
  · by_cases h0 : f64Value f = 0
    · obtain ⟨x, x1, x2⟩ := (C103_rest (L := L) (P := P) cfg f).1 hf h0
      obtain ⟨y, y1, y2⟩ := (C103_rest (L := L) (P := P) cfg' f).1 hf h0
      rw [x1, y1, value_inj (x2.trans y2.symm)]
    · obtain ⟨t, ht, -⟩ := C64_cut_unique |f64Value f| (abs_pos.2 h0)
      obtain ⟨a1, a2⟩ := C103_closed_form (L := L) cfg hP f hf h0 t ht
      obtain ⟨b1, b2⟩ := C103_closed_form (L := L) cfg' hP f hf h0 t ht
      by_cases h : round49 (t * 10 ^ P) ≤ rawMax L
      · obtain ⟨x, x1, x2⟩ := a1 h
        obtain ⟨y, y1, y2⟩ := b1 h
        rw [x1, y1, value_inj (x2.trans y2.symm)]
      · rw [a2 (not_le.1 h), b2 (not_le.1 h)]
  · rw [C40_not_finite cfg f hf, C40_not_finite cfg' f hf]

example := C103_build (L := .i64) (P := 9) debugCfg releaseCfg (by decide) 0x3FB999999999999A

/-- C43: a number made from an `f64` is at most `MAX` in absolute value; so `MIN` is never made, by no
`f64`, on no type. -/
theorem C43_never_min (cfg : Cfg) (hP : P ≤ 10 ^ 9) (f : BitVec 64) (x : FP L P)
    (h : FP.tryFromF64 cfg f = .ok x) :
    |value x| ≤ maxValue L P ∧ value x ≠ minValue L P := by
  by_cases hf : f64Finite f
  · obtain ⟨r, -, hr⟩ := tryFromF64_spec cfg L f hf hP
    rw [hr] at h
    obtain ⟨h1, h2⟩ := finish_ok h
    have hp : (0 : ℚ) < 10 ^ P := by positivity
    have hx : |value x| ≤ maxValue L P := by
      unfold maxValue
      have : |value x| = (r : ℚ) / 10 ^ P := by
        rw [h2, abs_div, abs_of_pos hp]
        split <;> simp
      rw [this, div_le_div_iff_of_pos_right hp]
      exact_mod_cast h1
    refine ⟨hx, fun hc => ?_⟩
    rw [hc] at hx
    unfold minValue maxValue at hx
    rw [abs_div, abs_of_pos hp, div_le_div_iff_of_pos_right hp] at hx
    have hm : |rawMin L| ≤ rawMax L := by exact_mod_cast hx
    revert hm
    cases L <;> decide
  · rw [C40_not_finite cfg f hf] at h
    cases h

example := C43_never_min debugCfg (by decide) 0xC0DFFFC000000000 (⟨-32767⟩ : FP .i16 0)
  (by decide +kernel)

theorem min_rejected_table :
    (∀ P : Fin 5, (FP.tryFromF64 debugCfg (f64Core (-2 ^ 15) (10 ^ P.val)) :
      Res ConvErr (FP .i16 P.val)) = .err ⟨"too big number"⟩) ∧
    (∀ P : Fin 10, (FP.tryFromF64 debugCfg (f64Core (-2 ^ 31) (10 ^ P.val)) :
      Res ConvErr (FP .i32 P.val)) = .err ⟨"too big number"⟩) ∧
    (∀ P : Fin 19, (FP.tryFromF64 debugCfg (f64Core (-2 ^ 63) (10 ^ P.val)) :
      Res ConvErr (FP .i64 P.val)) = .err ⟨"too big number"⟩) := by decide +kernel

/-- C47, the remaining number: `MIN` is converted to an `f64` that is rejected on the way back, with
every precision of the layouts up to 64 bits. -/
theorem C47_min_rejected {cfg cfg' : Cfg} (hv : Valid cfg L P) (hL : L ≠ .i128) :
    ∃ f, (FP.toF64 cfg (FP.min : FP L P) : Res ε _) = .ok f ∧
      (FP.tryFromF64 cfg' f : Res ConvErr (FP L P)) = .err ⟨"too big number"⟩ := by
  refine ⟨_, toF64_eq hv _, ?_⟩
  have hb := hv.1
  have lt : ∀ {m k : Nat} {M : Int}, M < 10 ^ k → (10 : Int) ^ m ≤ M → m < k := by
    intro m k M h1 h2
    by_contra hc
    have : (10 : Int) ^ k ≤ 10 ^ m := pow_le_pow_right₀ (by norm_num) (by omega)
    omega
  cases L with
  | i16 =>
    have h := lt (k := 5) (by decide) hb
    rw [C103_build cfg' debugCfg (by omega)]
    exact min_rejected_table.1 ⟨P, h⟩
  | i32 =>
    have h := lt (k := 10) (by decide) hb
    rw [C103_build cfg' debugCfg (by omega)]
    exact min_rejected_table.2.1 ⟨P, h⟩
  | i64 =>
    have h := lt (k := 19) (by decide) hb
    rw [C103_build cfg' debugCfg (by omega)]
    exact min_rejected_table.2.2 ⟨P, h⟩
  | i128 => exact absurd rfl hL

example := C47_min_rejected (ε := Unit) (L := .i64) (P := 9) (cfg := debugCfg) (cfg' := releaseCfg)
  (by decide) (by decide)

end Fixnum
