import Verif.FloatFaithful
import Verif.SqrtGuessBasic
import Verif.Props.FloatLiteral
import Verif.Props.RoundTrip

/-! # Properties C105 and C106: how the conversion to `f64` rounds, and `f64` to `f64` -/

namespace Fixnum

open Res Spec F64

variable {L : Layout} {P : Nat} {ε : Type}

/-- C105: with at most 15 digits no `f64` lies between a number and what it is converted to. -/
theorem C105_faithful {cfg : Cfg} (hv : Valid cfg L P) (hP : P ≤ 15) (a : FP L P) (f : BitVec 64)
    (hf : (FP.toF64 cfg a : Res ε _) = .ok f) (g : BitVec 64) (hg : f64Finite g) :
    (f64Value g ≤ value a → f64Value g ≤ f64Value f) ∧
    (value a ≤ f64Value g → f64Value f ≤ f64Value g) := by
  obtain ⟨hc, -, hz, -⟩ := valid_bounds hv a
  rw [toF64_eq hv] at hf
  injection hf with hf
  subst hf
  have hc53 : (10 : Int) ^ P ≤ 2 ^ 53 :=
    le_trans (pow_le_pow_right₀ (by norm_num) hP) (by norm_num : (10 : Int) ^ 15 ≤ 2 ^ 53)
  rw [value_raw]
  generalize a.inner.toInt = z at *
  obtain ⟨z1, z2⟩ := abs_le.1 hz
  rcases le_or_gt 0 z with h0 | h0
  · exact core_faithful_nonneg hc hc53 h0 z2 hg
  · have hn : f64Finite (f64Neg g) := by
      unfold f64Finite
      rw [(f64Neg_fields g).1]
      exact hg
    obtain ⟨h1, h2⟩ := core_faithful_nonneg hc hc53 (z := -z) (by omega) (by omega) hn
    rw [C41_f64Neg_value, core_neg] at h1 h2
    rw [Int.cast_neg, neg_div] at h1 h2
    exact ⟨fun h => by linarith [h2 (by linarith)], fun h => by linarith [h1 (by linarith)]⟩

example := C105_faithful (ε := Unit) (cfg := debugCfg) (by decide) (by decide)
  (⟨13420000000⟩ : FP .i64 9) 0x402AD70A3D70A3D7 (by decide +kernel) 0x402AD70A3D70A3D8
  (by decide +kernel)

/-- C105: with at most 15 digits a number that is an `f64` is converted to itself. -/
theorem C105_exact {cfg : Cfg} (hv : Valid cfg L P) (hP : P ≤ 15) (a : FP L P) (f : BitVec 64)
    (hf : (FP.toF64 cfg a : Res ε _) = .ok f) (g : BitVec 64) (hg : f64Finite g)
    (h : f64Value g = value a) : f64Value f = value a := by
  obtain ⟨h1, h2⟩ := C105_faithful hv hP a f hf g hg
  exact le_antisymm (h ▸ h2 h.ge) (h ▸ h1 h.le)

example := C105_exact (ε := Unit) (cfg := debugCfg) (by decide) (by decide)
  (⟨13500000000⟩ : FP .i64 9) 0x402B000000000000 (by decide +kernel) 0x402B000000000000
  (by decide +kernel) (by decide +kernel)

/-- C105 (partial: at most 15 digits, and below one in absolute value).  The result is the nearest
`f64`. -/
theorem C105_nearest_partial {cfg : Cfg} (hv : Valid cfg L P) (hP : P ≤ 15) (a : FP L P)
    (h1 : |value a| < 1) (f : BitVec 64) (hf : (FP.toF64 cfg a : Res ε _) = .ok f) (g : BitVec 64)
    (hg : f64Nearest g (value a)) : f64Value f = f64Value g := by
  obtain ⟨hc, -, hz, -⟩ := valid_bounds hv a
  rw [toF64_eq hv] at hf
  injection hf with hf
  subst hf
  have hc53 : (10 : Int) ^ P ≤ 2 ^ 53 :=
    le_trans (pow_le_pow_right₀ (by norm_num) hP) (by norm_num : (10 : Int) ^ 15 ≤ 2 ^ 53)
  have hbig : |value a| < 2 ^ 1023 := h1.trans (one_lt_pow₀ (by norm_num) (by norm_num))
  rw [f64Nearest_value hbig hg]
  rw [value_raw] at *
  generalize a.inner.toInt = z at *
  have hcq : (0 : ℚ) < ((10 ^ P : Int) : ℚ) := by exact_mod_cast hc
  have hlt : |z| < 10 ^ P := by
    rw [abs_div, abs_of_pos hcq, div_lt_one hcq] at h1
    exact_mod_cast h1
  have e1 : z.tdiv (10 ^ P) = 0 := by
    rcases le_or_gt 0 z with h | h
    · exact Int.tdiv_eq_zero_of_lt h (by rwa [abs_of_nonneg h] at hlt)
    · rw [← neg_neg z, Int.neg_tdiv, Int.tdiv_eq_zero_of_lt (by omega) (by rwa [abs_of_neg h] at hlt)]
      rfl
  have e2 : z.tmod (10 ^ P) = z := by
    have := Int.tmod_add_mul_tdiv z (10 ^ P)
    rw [e1] at this
    simpa using this
  unfold f64Core F64.add F64.div
  rw [toRat_eq, toRat_eq, e1, e2, toRat_eq, toRat_eq, ofInt_exact (by norm_num),
    ofInt_exact (z := z) (by omega), ofInt_exact (by rw [abs_of_pos hc]; exact hc53), Int.cast_zero,
    zero_add]
  have hle : |(z : ℚ) / ((10 ^ P : Int) : ℚ)| ≤ 2 ^ (0 : ℤ) := by rw [zpow_zero]; exact h1.le
  have hu := ofRat_half_ulp (by norm_num) (by norm_num) hle
  refine ofRat_f64Value hbig ?_
  have h3 := abs_sub_abs_le_abs_sub (f64Value (ofRat ((z : ℚ) / ((10 ^ P : Int) : ℚ))))
    ((z : ℚ) / ((10 ^ P : Int) : ℚ))
  have h4 : |f64Value (ofRat ((z : ℚ) / ((10 ^ P : Int) : ℚ)))| ≤ 2 := by
    have : (2 : ℚ) ^ ((0 : ℤ) - 54) ≤ 1 := by norm_num
    linarith
  exact lt_of_le_of_lt h4 (lt_of_le_of_lt (by norm_num : (2 : ℚ) ≤ 2 ^ 200) big_lt)

example := C105_nearest_partial (ε := Unit) (cfg := debugCfg) (by decide) (by decide)
  (⟨300000000⟩ : FP .i64 9) (by decide +kernel) 0x3FD3333333333333 (by decide +kernel) _
  (C46_model_rounding (by decide +kernel))

/-- C105, the restriction is necessary: 1.14 with two digits is converted to 1.1400000000000001, not
to the nearest `f64`. -/
theorem C105_nearest_false :
    Valid debugCfg .i64 2 ∧
    (FP.toF64 debugCfg (⟨114⟩ : FP .i64 2) : Res Unit _) = .ok 0x3FF23D70A3D70A3E ∧
    f64Nearest 0x3FF23D70A3D70A3D (114 / 100) ∧
    f64Value 0x3FF23D70A3D70A3E ≠ f64Value 0x3FF23D70A3D70A3D := by
  refine ⟨by decide, by decide +kernel, ?_, ?_⟩
  · have h := C46_model_rounding (v := 114 / 100) (by
      rw [abs_of_pos (by norm_num)]
      exact lt_of_lt_of_le (by norm_num : (114 / 100 : ℚ) < 2 ^ 1) (pow_le_pow_right₀ (by norm_num) (by norm_num)))
    rwa [show F64.ofRat (114 / 100) = 0x3FF23D70A3D70A3D by decide +kernel] at h
  · rw [← toRat_eq, ← toRat_eq]
    decide +kernel

/-- For each number of digits from 16 on: the raw value of a number, the `f64` equal to it, and what it
is converted to. -/
def inexactWitness : Nat → Int × BitVec 64 × BitVec 64
  | 16 => (9007415771484375, 0x3FECD2E000000000, 0x3FECD2E000000001)
  | 17 => (72064208984375000, 0x3FE70F8000000000, 0x3FE70F8000000001)
  | 18 => (576904296875000000, 0x3FE2760000000000, 0x3FE2760000000001)
  | 19 => (9238281250000000000, 0x3FED900000000000, 0x3FED8FFFFFFFFFFF)
  | 20 => (74218750000000000000, 0x3FE7C00000000000, 0x3FE7C00000000001)
  | 21 => (593750000000000000000, 0x3FE3000000000000, 0x3FE3000000000001)
  | 22 => (9687500000000000000000, 0x3FEF000000000000, 0x3FEEFFFFFFFFFFFF)
  | 23 => (75000000000000000000000, 0x3FE8000000000000, 0x3FE8000000000001)
  | 24 => (625000000000000000000000, 0x3FE4000000000000, 0x3FE4000000000001)
  | 25 => (8750000000000000000000000, 0x3FEC000000000000, 0x3FEBFFFFFFFFFFFF)
  | 26 => (87500000000000000000000000, 0x3FEC000000000000, 0x3FEBFFFFFFFFFFFF)
  | 27 => (750000000000000000000000000, 0x3FE8000000000000, 0x3FE7FFFFFFFFFFFF)
  | 28 => (6875000000000000000000000000, 0x3FE6000000000000, 0x3FE6000000000001)
  | 29 => (62500000000000000000000000000, 0x3FE4000000000000, 0x3FE4000000000001)
  | 30 => (750000000000000000000000000000, 0x3FE8000000000000, 0x3FE7FFFFFFFFFFFF)
  | 31 => (6250000000000000000000000000000, 0x3FE4000000000000, 0x3FE4000000000001)
  | 32 => (62500000000000000000000000000000, 0x3FE4000000000000, 0x3FE3FFFFFFFFFFFF)
  | 33 => (875000000000000000000000000000000, 0x3FEC000000000000, 0x3FEC000000000001)
  | 34 => (7500000000000000000000000000000000, 0x3FE8000000000000, 0x3FE8000000000001)
  | 35 => (81250000000000000000000000000000000, 0x3FEA000000000000, 0x3FEA000000000001)
  | 36 => (875000000000000000000000000000000000, 0x3FEC000000000000, 0x3FEBFFFFFFFFFFFF)
  | 37 => (7500000000000000000000000000000000000, 0x3FE8000000000000, 0x3FE8000000000001)
  | 38 => (68750000000000000000000000000000000000, 0x3FE6000000000000, 0x3FE6000000000001)
  | _ => (0, 0, 0)

theorem inexactWitness_spec : ∀ L ∈ [Layout.i16, .i32, .i64, .i128], ∀ P < 39, 16 ≤ P →
    (10 : Int) ^ P ≤ rawMax L →
    F64.toRat (inexactWitness P).2.1 =
      ((BitVec.ofInt L.bits (inexactWitness P).1).toInt : ℚ) / 10 ^ P ∧
    F64.isFinite (inexactWitness P).2.1 = true ∧
    (FP.toF64 debugCfg (⟨BitVec.ofInt L.bits (inexactWitness P).1⟩ : FP L P) : Res Unit _) =
      .ok (inexactWitness P).2.2 ∧
    F64.toRat (inexactWitness P).2.2 ≠ F64.toRat (inexactWitness P).2.1 := by
  decide +kernel

/-- C105, more digits: for every type with more than 15 digits there is a number that is an `f64` but
is converted to another one. -/
theorem C105_faithful_outside_domain {cfg : Cfg} (hv : Valid cfg L P) (hP : 16 ≤ P) :
    ∃ (a : FP L P) (g f : BitVec 64), f64Finite g ∧ f64Value g = value a ∧
      (FP.toF64 cfg a : Res Unit _) = .ok f ∧ f64Value f ≠ value a := by
  have hP' : P < 39 := by
    by_contra h
    have h1 : (10 : Int) ^ 39 ≤ 10 ^ P := pow_le_pow_right₀ (by norm_num) (by omega)
    have h2 : rawMax L < 10 ^ 39 := by cases L <;> decide +kernel
    have := hv.1
    omega
  have hL : L ∈ [Layout.i16, .i32, .i64, .i128] := by cases L <;> simp
  obtain ⟨h1, h2, h3, h4⟩ := inexactWitness_spec L hL P hP' hP hv.1
  have hd : Valid debugCfg L P := ⟨hv.1, fun _ => rfl⟩
  refine ⟨⟨BitVec.ofInt L.bits (inexactWitness P).1⟩, _, (inexactWitness P).2.2, (isFinite_iff _).1 h2, ?_, ?_, ?_⟩
  · rw [← toRat_eq, h1]; rfl
  · rw [toF64_eq hv, ← toF64_eq hd, h3]
  · rw [← toRat_eq]
    intro h
    exact h4 (h.trans h1.symm)

example := C105_faithful_outside_domain (cfg := debugCfg) (L := .i64) (P := 16) (by decide) (by decide)

-- 1.14 lies between the two neighbours 1.14 and 1.1400000000000001 of `C105_nearest_false`;
-- -12.375 is an `f64`; 0.1 is below one
example :
    f64Value 0x3FF23D70A3D70A3D < 114 / 100 ∧ 114 / 100 < f64Value 0x3FF23D70A3D70A3E ∧
    (FP.toF64 debugCfg (⟨-12375⟩ : FP .i64 3) : Res Unit _) = .ok 0xC028C00000000000 ∧
    (FP.toF64 debugCfg (⟨100000000⟩ : FP .i64 9) : Res Unit _) = .ok (F64.ofRat (1 / 10)) := by
  rw [← toRat_eq, ← toRat_eq]
  decide +kernel

/-! ## C106 -/

/-- A nearest `f64` is next to the number. -/
theorem nearest_faithful {f g : BitVec 64} {v : ℚ} (hf : f64Nearest f v) (hg : f64Finite g) :
    (f64Value g ≤ v → f64Value g ≤ f64Value f) ∧ (v ≤ f64Value g → f64Value f ≤ f64Value g) := by
  have h := hf.2.2.1 g hg
  constructor
  · intro h1
    by_contra hc
    rw [not_le] at hc
    rw [abs_of_neg (by linarith), abs_of_nonpos (by linarith)] at h
    linarith
  · intro h1
    by_contra hc
    rw [not_le] at hc
    rw [abs_of_pos (by linarith), abs_of_nonneg (by linarith)] at h
    linarith

/-- C106 (partial: next to, not equal).  The `f64` nearest to a fixed-point number, taken to
`FixedPoint` and back, is the same `f64` or the next one on the other side of the number: none lies
between. -/
theorem C106_there_and_back_partial {cfg cfg' cfg'' : Cfg} (hv : Valid cfg L P) (hP : P ≤ 15)
    (a : FP L P) (hr : |value a * 10 ^ P| < 4 * 10 ^ 15) (hm : value a ≠ minValue L P)
    (f : BitVec 64) (hf : f64Nearest f (value a)) :
    FP.tryFromF64 cfg' f = .ok a ∧
    ∃ r, (FP.toF64 cfg a : Res ε _) = .ok r ∧ f64Finite r ∧
      (∀ g, f64Finite g → ¬ (f64Value f < f64Value g ∧ f64Value g < f64Value r) ∧
        ¬ (f64Value r < f64Value g ∧ f64Value g < f64Value f)) ∧
      (|value a| < 1 ∨ f64Value f = value a → f64Value r = f64Value f) ∧
      (FP.tryFromF64 cfg'' r : Res ConvErr (FP L P)) = .ok a := by
  refine ⟨C104_back cfg' (by omega) a hr.le hm f hf, ?_⟩
  obtain ⟨r, h1, h2⟩ := C46_finite (ε := ε) hv a
  refine ⟨r, h1, h2, fun g hg => ?_, ?_, ?_⟩
  · obtain ⟨a1, a2⟩ := nearest_faithful hf hg
    obtain ⟨b1, b2⟩ := C105_faithful hv hP a r h1 g hg
    rcases le_total (f64Value g) (value a) with h | h
    · exact ⟨fun hc => by linarith [a1 h], fun hc => by linarith [b1 h]⟩
    · exact ⟨fun hc => by linarith [b2 h], fun hc => by linarith [a2 h]⟩
  · rintro (h | h)
    · exact C105_nearest_partial hv hP a h r h1 f hf
    · rw [C105_exact hv hP a r h1 f hf.1 h, h]
  · exact C47_round_trip_partial hv a r h1 (.inr ⟨by omega, hr⟩) hm

example := C106_there_and_back_partial (ε := Unit) (cfg := debugCfg) (cfg' := releaseCfg)
  (cfg'' := debugCfg) (by decide) (by decide) (⟨13420000000⟩ : FP .i64 9) (by decide +kernel)
  (by decide +kernel) _ (C46_model_rounding (by decide +kernel))

/-- C106, why not equal: the `f64` 1.14 becomes 1.14 with two digits, which becomes the `f64`
1.1400000000000001; that one stays. -/
theorem C106_there_and_back_false :
    (FP.tryFromF64 debugCfg 0x3FF23D70A3D70A3D : Res ConvErr (FP .i64 2)) = .ok ⟨114⟩ ∧
    (FP.toF64 debugCfg (⟨114⟩ : FP .i64 2) : Res Unit _) = .ok 0x3FF23D70A3D70A3E ∧
    (FP.tryFromF64 debugCfg 0x3FF23D70A3D70A3E : Res ConvErr (FP .i64 2)) = .ok ⟨114⟩ := by
  decide +kernel

-- 1.14 meets the hypotheses, `C105_nearest_false` gives the nearest `f64`
example : Valid debugCfg .i64 2 ∧ |value (⟨114⟩ : FP .i64 2) * 10 ^ 2| < 4 * 10 ^ 15 ∧
    value (⟨114⟩ : FP .i64 2) ≠ minValue .i64 2 := by
  have h : value (⟨114⟩ : FP .i64 2) = 114 / 100 := by
    unfold value
    rw [show (⟨114⟩ : FP .i64 2).inner.toInt = 114 by decide]
    norm_num
  refine ⟨by decide, ?_, ?_⟩
  · rw [h, abs_of_pos (by norm_num)]
    norm_num
  · rw [h]
    unfold minValue
    rw [show rawMin .i64 = -9223372036854775808 by decide]
    norm_num

end Fixnum
