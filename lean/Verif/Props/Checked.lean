import Verif.OpsBasic
import Mathlib.Algebra.Order.Group.MinMax

/-!
# Properties C01–C06, C52–C54, C57, C58, C60: exact operations, constants, order
-/

namespace Fixnum

open Res Spec

variable {L : Layout} {P : Nat} {ε : Type}

/-! ## Helper lemmas -/

theorem checkedFP_of_checked (z : Int) :
    mapOk (ofOption ArithErr.overflow (SInt.checked L.bits z)) FP.fromBits = checkedFP L P z := by
  unfold SInt.checked checkedFP
  by_cases h : Fits L.bits z
  · rw [if_pos h, if_pos h]; rfl
  · rw [if_neg h, if_neg h]; rfl

theorem clamp_int (z : Int) :
    clamp L P ((z : ℚ) / 10 ^ P) = ((max (rawMin L) (min (rawMax L) z) : Int) : ℚ) / 10 ^ P := by
  have hp := ten_pow_pos P
  unfold clamp minValue maxValue
  rw [min_div_div_right hp.le, max_div_div_right hp.le]
  push_cast
  rfl

theorem value_saturate (z : Int) :
    value (⟨SInt.saturate L.bits z⟩ : FP L P) = clamp L P ((z : ℚ) / 10 ^ P) := by
  have hh := half_pos L
  have e : (if z < iMin L.bits then iMin L.bits else if iMax L.bits < z then iMax L.bits else z) =
      max (rawMin L) (min (rawMax L) z) := by
    show (if z < rawMin L then rawMin L else if rawMax L < z then rawMax L else z) = _
    rw [rawMin_half, rawMax_half]
    split
    · omega
    · split <;> omega
  have hf : Fits L.bits (max (rawMin L) (min (rawMax L) z)) := by
    rw [fits_half, rawMin_half, rawMax_half]; omega
  unfold SInt.saturate
  rw [e, value_ofInt hf, clamp_int]

/-! ## C01, C02 -/

/-- C01: `cadd` is the exact sum, or `Overflow` when that is not representable. -/
theorem C01_cadd_exact (a b : FP L P) :
    ExactOr ArithErr.overflow (FP.cadd a b) (value a + value b) := by
  have h := checkedFP_exactOr (L := L) (P := P) (a.inner.toInt + b.inner.toInt)
  rw [← checkedFP_of_checked] at h
  have e : value a + value b = ((a.inner.toInt + b.inner.toInt : Int) : ℚ) / 10 ^ P := by
    unfold value; push_cast; ring
  rw [e]; exact h

example : FP.cadd (⟨15⟩ : FP .i64 1) ⟨-7⟩ = .ok ⟨8⟩ ∧
    FP.cadd (⟨1⟩ : FP .i16 2) FP.max = .err .overflow := by decide

/-- C01, the other direction of reading: a returned sum is exact. -/
theorem C01_cadd_ok (a b c : FP L P) (h : FP.cadd a b = .ok c) : value c = value a + value b :=
  ((C01_cadd_exact a b).ok_iff c).1 h

example := C01_cadd_ok (⟨300000000⟩ : FP .i64 9) ⟨500000000⟩ ⟨800000000⟩ (by decide)

example : ∃ a b c : FP .i64 9, FP.cadd a b = .ok c ∧ value c = 8 / 10 :=
  ⟨⟨300000000⟩, ⟨500000000⟩, ⟨800000000⟩, by decide, by
    rw [value_eq _ 800000000 (by decide)]; norm_num⟩
example : FP.cadd (FP.max : FP .i64 9) FP.epsilon = .err .overflow := by decide
example : ∃ a b : FP .i16 2, Representable .i16 2 (value a + value b) :=
  ⟨⟨100⟩, ⟨-7⟩, ⟨93⟩, by
    rw [value_eq _ 93 (by decide), value_eq _ 100 (by decide), value_eq _ (-7) (by decide)]
    norm_num⟩
example : ¬ Representable .i16 2 (value (FP.max : FP .i16 2) + value (FP.epsilon : FP .i16 2)) := by
  have h : FP.cadd (FP.max : FP .i16 2) FP.epsilon = .err .overflow := by decide
  exact (C01_cadd_exact _ _).err_iff.1 ⟨_, h⟩

/-- C02: `csub` is the exact difference, or `Overflow` when that is not representable. -/
theorem C02_csub_exact (a b : FP L P) :
    ExactOr ArithErr.overflow (FP.csub a b) (value a - value b) := by
  have h := checkedFP_exactOr (L := L) (P := P) (a.inner.toInt - b.inner.toInt)
  rw [← checkedFP_of_checked] at h
  have e : value a - value b = ((a.inner.toInt - b.inner.toInt : Int) : ℚ) / 10 ^ P := by
    unfold value; push_cast; ring
  rw [e]; exact h

example : FP.csub (⟨15⟩ : FP .i64 1) ⟨-7⟩ = .ok ⟨22⟩ ∧
    FP.csub (⟨0⟩ : FP .i16 2) FP.min = .err .overflow := by decide

theorem C02_csub_ok (a b c : FP L P) (h : FP.csub a b = .ok c) : value c = value a - value b :=
  ((C02_csub_exact a b).ok_iff c).1 h

example := C02_csub_ok (⟨300000000⟩ : FP .i64 9) ⟨500000000⟩ ⟨-200000000⟩ (by decide)

example : FP.csub (⟨300000000⟩ : FP .i64 9) ⟨500000000⟩ = .ok ⟨-200000000⟩ := by decide
example : FP.csub (FP.min : FP .i64 9) FP.epsilon = .err .overflow := by decide
-- `0 - MIN` overflows although `cadd` of `MIN` to `0` does not
example : FP.csub (FP.zero : FP .i32 4) FP.min = .err .overflow := by decide

/-! ## C03 -/

/-- C03: multiplication by a layout integer is the exact product, or `Overflow`. -/
theorem C03_cmul_exact (a : FP L P) (n : BitVec L.bits) :
    ExactOr ArithErr.overflow (FP.cmul a n) (value a * (n.toInt : ℚ)) := by
  have h := checkedFP_exactOr (L := L) (P := P) (a.inner.toInt * n.toInt)
  rw [← checkedFP_of_checked] at h
  have e : value a * (n.toInt : ℚ) = ((a.inner.toInt * n.toInt : Int) : ℚ) / 10 ^ P := by
    unfold value; push_cast; ring
  rw [e]; exact h

example : FP.cmul (⟨-25⟩ : FP .i16 1) (7 : BitVec 16) = .ok ⟨-175⟩ ∧
    FP.cmul (⟨-25⟩ : FP .i16 1) (7000 : BitVec 16) = .err .overflow := by decide +kernel

/-- C03: the other operand order has the same result. -/
theorem C03_cmul_order (a : FP L P) (n : BitVec L.bits) : FP.intCmul n a = FP.cmul a n := rfl

/-- C03 for the other operand order. -/
theorem C03_intCmul_exact (a : FP L P) (n : BitVec L.bits) :
    ExactOr ArithErr.overflow (FP.intCmul n a) ((n.toInt : ℚ) * value a) := by
  rw [C03_cmul_order, mul_comm]; exact C03_cmul_exact a n

example : FP.cmul (⟨-1500000000⟩ : FP .i64 9) 4 = .ok ⟨-6000000000⟩ := by decide
example : FP.cmul (FP.min : FP .i64 9) (-1) = .err .overflow := by decide
example : FP.intCmul (-1) (FP.min : FP .i64 9) = .err .overflow := by decide

/-! ## C04 -/

/-- C04: `cneg` is the exact negation, or `Overflow`. -/
theorem C04_cneg_exact (a : FP L P) : ExactOr ArithErr.overflow (FP.cneg a) (-value a) := by
  have h := checkedFP_exactOr (L := L) (P := P) (-a.inner.toInt)
  have e : -value a = ((-a.inner.toInt : Int) : ℚ) / 10 ^ P := by
    unfold value; push_cast; ring
  have e2 : FP.cneg a = checkedFP L P (-a.inner.toInt) := by
    unfold FP.cneg SInt.checkedNeg SInt.checked checkedFP
    by_cases hf : Fits L.bits (-a.inner.toInt)
    · rw [if_pos hf, if_pos hf]; rfl
    · rw [if_neg hf, if_neg hf]; rfl
  rw [e, e2]; exact h

example : FP.cneg (⟨-25⟩ : FP .i16 1) = .ok ⟨25⟩ := by decide +kernel

theorem min_toInt (L : Layout) (P : Nat) : (FP.min : FP L P).inner.toInt = rawMin L := by
  cases L <;> rfl

theorem max_toInt (L : Layout) (P : Nat) : (FP.max : FP L P).inner.toInt = rawMax L := by
  cases L <;> rfl

/-- C04: `cneg` fails exactly for `MIN`. -/
theorem C04_cneg_overflow_iff (a : FP L P) : FP.cneg a = .err .overflow ↔ a = FP.min := by
  have hx := C04_cneg_exact a
  have hr : ¬ Representable L P (-value a) ↔ a = FP.min := by
    have e : -value a = ((-a.inner.toInt : Int) : ℚ) / 10 ^ P := by
      unfold value; push_cast; ring
    rw [e, representable_iff, fits_half]
    have hf := (fits_half L a.inner.toInt).1 (toInt_fits _)
    have hm := min_toInt L P
    rw [rawMin_half] at hm
    constructor
    · intro h
      apply FP.ext
      apply toInt_inj'
      rw [hm]; omega
    · intro h
      rw [h, hm]; omega
  rw [← hr]
  constructor
  · intro h; exact hx.err_iff.1 ⟨_, h⟩
  · exact hx.2

example : FP.cneg (FP.min : FP .i16 2) = .err .overflow ∧
    FP.cneg (FP.max : FP .i16 2) = .ok ⟨-32767⟩ := by decide

/-- C04: `abs` is the exact absolute value, or `Overflow`. -/
theorem C04_abs_exact (a : FP L P) : ExactOr ArithErr.overflow (FP.abs a) |value a| := by
  have hp := ten_pow_pos P
  unfold FP.abs
  by_cases h : a.inner.toInt < 0
  · rw [if_pos h]
    have hv : value a < 0 := div_neg_of_neg_of_pos (by exact_mod_cast h) hp
    rw [abs_of_neg hv]
    exact C04_cneg_exact a
  · rw [if_neg h]
    have hv : 0 ≤ value a := div_nonneg (by exact_mod_cast not_lt.1 h) hp.le
    rw [abs_of_nonneg hv]
    exact ⟨fun _ => ⟨a, rfl, rfl⟩, fun hc => absurd ⟨a, rfl⟩ hc⟩

example : FP.abs (⟨-125⟩ : FP .i16 2) = .ok ⟨125⟩ ∧ FP.abs (⟨125⟩ : FP .i16 2) = .ok ⟨125⟩ ∧
    FP.abs (FP.min : FP .i16 2) = .err .overflow := by decide

/-- C04: `abs` fails exactly for `MIN`. -/
theorem C04_abs_overflow_iff (a : FP L P) : FP.abs a = .err .overflow ↔ a = FP.min := by
  unfold FP.abs
  by_cases h : a.inner.toInt < 0
  · rw [if_pos h]; exact C04_cneg_overflow_iff a
  · rw [if_neg h]
    constructor
    · intro hc; cases hc
    · intro hc
      rw [hc, min_toInt, rawMin_half] at h
      have := half_pos L
      omega

example : FP.cneg (⟨-5⟩ : FP .i128 18) = .ok ⟨5⟩ := by decide
example : FP.abs (⟨-5⟩ : FP .i128 18) = .ok ⟨5⟩ := by decide
example : FP.abs (FP.min : FP .i128 18) = .err .overflow := by decide

/-! ## C05, C06 -/

/-- C05: `saturating_add` is the exact sum clamped to the range. -/
theorem C05_saturating_add (a b : FP L P) :
    value (FP.saturatingAdd a b) = clamp L P (value a + value b) := by
  have e : value a + value b = ((a.inner.toInt + b.inner.toInt : Int) : ℚ) / 10 ^ P := by
    unfold value; push_cast; ring
  rw [e]; exact value_saturate _

example : FP.saturatingAdd (⟨15⟩ : FP .i16 1) ⟨-7⟩ = ⟨8⟩ ∧
    FP.saturatingAdd (⟨30000⟩ : FP .i16 1) ⟨2768⟩ = ⟨32767⟩ := by decide

/-- C05: `saturating_sub` is the exact difference clamped to the range. -/
theorem C05_saturating_sub (a b : FP L P) :
    value (FP.saturatingSub a b) = clamp L P (value a - value b) := by
  have e : value a - value b = ((a.inner.toInt - b.inner.toInt : Int) : ℚ) / 10 ^ P := by
    unfold value; push_cast; ring
  rw [e]; exact value_saturate _

example : FP.saturatingAdd (FP.max : FP .i64 9) FP.epsilon = FP.max := by decide
example : FP.saturatingSub (FP.zero : FP .i64 9) FP.min = FP.max := by decide
example : FP.saturatingSub (⟨7⟩ : FP .i64 9) ⟨9⟩ = ⟨-2⟩ := by decide

/-- C06: `saturating_mul` is the exact product clamped to the range. -/
theorem C06_saturating_mul (a : FP L P) (n : BitVec L.bits) :
    value (FP.saturatingMul a n) = clamp L P (value a * (n.toInt : ℚ)) := by
  have e : value a * (n.toInt : ℚ) = ((a.inner.toInt * n.toInt : Int) : ℚ) / 10 ^ P := by
    unfold value; push_cast; ring
  rw [e]; exact value_saturate _

example : FP.saturatingMul (⟨-15⟩ : FP .i16 1) 7 = ⟨-105⟩ ∧
    FP.saturatingMul (⟨-15⟩ : FP .i16 1) 7000 = ⟨-32768⟩ := by decide

/-- C06 for the other operand order. -/
theorem C06_int_saturating_mul (n : BitVec L.bits) (a : FP L P) :
    value (FP.intSaturatingMul n a) = clamp L P ((n.toInt : ℚ) * value a) := by
  have e : (n.toInt : ℚ) * value a = ((n.toInt * a.inner.toInt : Int) : ℚ) / 10 ^ P := by
    unfold value; push_cast; ring
  rw [e]; exact value_saturate _

example : FP.saturatingMul (FP.min : FP .i64 9) (-1) = FP.max := by decide
example : FP.intSaturatingMul (-2) (FP.max : FP .i64 9) = FP.min := by decide
example : FP.intSaturatingMul (-2) (⟨21⟩ : FP .i64 9) = ⟨-42⟩ := by decide

/-! ## C52 -/

theorem C52_zero : value (FP.zero : FP L P) = 0 := by
  have : (FP.zero : FP L P).inner.toInt = 0 := by cases L <;> rfl
  unfold value; rw [this]; simp

/-- C52: `ONE` exists and denotes one, for every precision that fits the layout. -/
theorem C52_one {cfg : Cfg} (hv : Valid cfg L P) :
    ∃ o : FP L P, (FP.one cfg : Res ε (FP L P)) = .ok o ∧ value o = 1 := by
  refine ⟨⟨BitVec.ofInt L.bits (10 ^ P)⟩, ?_, ?_⟩
  · unfold FP.one; rw [coef_spec hv]; rfl
  · unfold value
    rw [coef_toInt hv]
    push_cast
    exact div_self (ten_pow_ne P)

example := C52_one (ε := Unit) (L := .i128) (P := 38) (cfg := ⟨true, true, true, true⟩) (by decide)

/-- C52: `COEF` is `10^P` and `NEG_COEF` is `-10^P`. -/
theorem C52_coef {cfg : Cfg} (hv : Valid cfg L P) :
    ∃ c : BitVec L.bits, (coef cfg L P : Res ε _) = .ok c ∧ c.toInt = 10 ^ P :=
  ⟨_, coef_spec hv, coef_toInt hv⟩

example := C52_coef (ε := Unit) (L := .i64) (P := 18) (cfg := ⟨false, false, false, false⟩) (by decide)

theorem C52_neg_coef {cfg : Cfg} (hv : Valid cfg L P) :
    ∃ c : BitVec L.bits, (negCoef cfg L P : Res ε _) = .ok c ∧ c.toInt = -10 ^ P :=
  ⟨_, negCoef_spec hv, negCoef_toInt hv⟩

example := C52_neg_coef (ε := Unit) (L := .i32) (P := 9) (cfg := ⟨true, true, true, true⟩) (by decide)

/-- C52: `EPSILON` denotes `10^-P` and is the least positive value. -/
theorem C52_epsilon : value (FP.epsilon : FP L P) = 1 / 10 ^ P ∧
    ∀ x : FP L P, 0 < value x → value (FP.epsilon : FP L P) ≤ value x := by
  have h1 : (FP.epsilon : FP L P).inner.toInt = 1 := by cases L <;> rfl
  have hp := ten_pow_pos P
  refine ⟨by unfold value; rw [h1]; simp, fun x hx => ?_⟩
  unfold value at *
  rw [h1, div_le_div_iff_of_pos_right hp]
  have : (0 : ℚ) < x.inner.toInt := by
    by_contra hc
    exact absurd hx (not_lt.2 (div_nonpos_of_nonpos_of_nonneg (not_lt.1 hc) hp.le))
  have : (0 : Int) < x.inner.toInt := by exact_mod_cast this
  exact_mod_cast this

example : 0 < value (⟨3⟩ : FP .i64 9) := by decide +kernel

/-- C52: `MIN` and `MAX` are values of the type and bound every value. -/
theorem C52_bounds (x : FP L P) :
    value (FP.min : FP L P) ≤ value x ∧ value x ≤ value (FP.max : FP L P) := by
  have hp := ten_pow_pos P
  have hf := toInt_fits x.inner
  unfold value
  rw [min_toInt, max_toInt, div_le_div_iff_of_pos_right hp, div_le_div_iff_of_pos_right hp]
  exact ⟨by exact_mod_cast hf.1, by exact_mod_cast hf.2⟩

example : (FP.min : FP .i16 2) = ⟨-32768⟩ ∧ (FP.max : FP .i16 2) = ⟨32767⟩ := by decide

/-- C52: the bounds are the extreme numbers of the layout. -/
theorem C52_bounds_value : value (FP.min : FP L P) = minValue L P ∧
    value (FP.max : FP L P) = maxValue L P := by
  unfold value minValue maxValue
  rw [min_toInt, max_toInt]
  exact ⟨rfl, rfl⟩

example : ∀ cfg, Valid cfg .i64 18 := by intro cfg; refine ⟨by decide, by simp⟩
example : Valid ⟨true, true, true, true⟩ .i128 38 := by decide
example : ∃ x : FP .i64 9, 0 < value x := ⟨⟨5⟩, by rw [value_eq _ 5 (by decide)]; norm_num⟩

/-! ## C53 -/

/-- C53 is false: `FixedPoint<i16, U5>` compiles with `ONE = -31072·10^-5`. -/
theorem C53_precision_rejected_false :
    ¬ ∀ (cfg : Cfg) (L : Layout) (P : Nat), (L = .i128 → cfg.i128 = true) →
      ∀ o : FP L P, (FP.one cfg : Res Unit (FP L P)) = .ok o → value o = 1 := by
  intro h
  have h1 := h ⟨true, true, true, true⟩ .i16 5 (by simp) ⟨BitVec.ofInt _ (-31072)⟩ (by decide)
  rw [value_eq _ (-31072) (by decide)] at h1
  norm_num at h1

/-- C53, the true part: with a precision whose coefficient fits the layout, `ONE` is the number 1.
Missing with respect to the full statement: precisions with `10^P > MAX`, for which it fails. -/
theorem C53_precision_partial {cfg : Cfg} (hv : Valid cfg L P) (o : FP L P)
    (h : (FP.one cfg : Res ε (FP L P)) = .ok o) : value o = 1 := by
  obtain ⟨o', h1, h2⟩ := C52_one (ε := ε) hv
  rw [h1] at h
  cases h
  exact h2

example := C53_precision_partial (ε := Unit) (cfg := ⟨true, true, true, true⟩) (by decide) (⟨1000000000⟩ : FP .i64 9)
  (by decide +kernel)

example : (FP.one ⟨true, true, true, false⟩ : Res Unit (FP .i64 9)) = .ok ⟨1000000000⟩ := by decide

/-! ## C54 -/

/-- C54: the derived order is the order of the denoted numbers. -/
theorem C54_cmp (a b : FP L P) : FP.cmp a b = compare (value a) (value b) := by
  have hp := ten_pow_pos P
  unfold FP.cmp
  rcases lt_trichotomy a.inner.toInt b.inner.toInt with h | h | h
  · rw [compare_lt_iff_lt.2 h, eq_comm, compare_lt_iff_lt]
    unfold value
    rw [div_lt_div_iff_of_pos_right hp]; exact_mod_cast h
  · rw [compare_eq_iff_eq.2 h, eq_comm, compare_eq_iff_eq]
    unfold value; rw [h]
  · rw [compare_gt_iff_gt.2 h, eq_comm, compare_gt_iff_gt]
    unfold value
    rw [div_lt_div_iff_of_pos_right hp]; exact_mod_cast h

example : FP.cmp (⟨-1⟩ : FP .i16 2) ⟨1⟩ = .lt ∧ FP.cmp (⟨7⟩ : FP .i16 2) ⟨7⟩ = .eq ∧
    FP.cmp (⟨7⟩ : FP .i16 2) ⟨-8⟩ = .gt := by decide

/-- C54: derived equality is equality of the denoted numbers, and of the representation (so that
the derived `Hash` respects it). -/
theorem C54_eq (a b : FP L P) : (FP.beq a b = true ↔ value a = value b) ∧
    (value a = value b ↔ a.inner = b.inner) := by
  have h : value a = value b ↔ a.inner = b.inner :=
    ⟨fun h => congrArg FP.inner (value_inj h), fun h => by rw [FP.ext h]⟩
  refine ⟨?_, h⟩
  unfold FP.beq
  rw [decide_eq_true_iff]; exact h.symm

example : FP.beq (⟨-1⟩ : FP .i16 2) ⟨-1⟩ = true ∧ FP.beq (⟨-1⟩ : FP .i16 2) ⟨1⟩ = false := by decide

/-- C54: `signum` is the sign of the denoted number. -/
theorem C54_signum (a : FP L P) :
    (FP.signum a).toInt = if value a < 0 then -1 else if value a = 0 then 0 else 1 := by
  have hp := ten_pow_pos P
  unfold FP.signum
  rw [SInt.signum_toInt (by have := bits_ge L; omega)]
  unfold value
  rcases lt_trichotomy a.inner.toInt 0 with h | h | h
  · rw [Int.sign_eq_neg_one_of_neg h, if_pos]
    exact div_neg_of_neg_of_pos (by exact_mod_cast h) hp
  · rw [h]; simp
  · have h' : (0 : ℚ) < a.inner.toInt := by exact_mod_cast h
    have := div_pos h' hp
    rw [Int.sign_eq_one_of_pos h, if_neg (not_lt.2 this.le), if_neg this.ne']

example : FP.cmp (⟨-3⟩ : FP .i16 2) ⟨2⟩ = .lt := by decide
example : FP.signum (⟨-3⟩ : FP .i16 2) = -1 := by decide

/-! ## C57 -/

/-- An arbitrary grouping of a sum. -/
inductive Sum (L : Layout) (P : Nat)
  | leaf (x : FP L P)
  | node (l r : Sum L P)

/-- Evaluate the grouping with `cadd` (`?` propagates the first error). -/
def Sum.eval : Sum L P → Res ArithErr (FP L P)
  | .leaf x => .ok x
  | .node l r => do
    let a ← l.eval
    let b ← r.eval
    FP.cadd a b

/-- The summands, left to right. -/
def Sum.leaves : Sum L P → List (FP L P)
  | .leaf x => [x]
  | .node l r => l.leaves ++ r.leaves

/-- C57: whenever every intermediate result exists, the result is the exact sum. -/
theorem C57_sum_exact (t : Sum L P) (c : FP L P) (h : t.eval = .ok c) :
    value c = (t.leaves.map value).sum := by
  induction t generalizing c with
  | leaf x => cases h; simp [Sum.leaves]
  | node l r ihl ihr =>
    simp only [Sum.eval] at h
    cases hl : l.eval with
    | ok a =>
      cases hr : r.eval with
      | ok b =>
        rw [hl, hr, ok_bind, ok_bind] at h
        rw [C01_cadd_ok a b c h, ihl a hl, ihr b hr, Sum.leaves, List.map_append, List.sum_append]
      | err e => rw [hl, hr, ok_bind, err_bind] at h; cases h
      | fault k => rw [hl, hr, ok_bind, fault_bind] at h; cases h
    | err e => rw [hl, err_bind] at h; cases h
    | fault k => rw [hl, fault_bind] at h; cases h

example := C57_sum_exact (.node (.node (.leaf ⟨15⟩) (.leaf ⟨-40⟩)) (.leaf (⟨32000⟩ : FP .i16 1))) ⟨31975⟩
  (by decide +kernel)

/-- C57: any two groupings of any two orders of the same summands that both succeed agree. -/
theorem C57_order_irrelevant (s t : Sum L P) (c d : FP L P) (hp : s.leaves.Perm t.leaves)
    (hs : s.eval = .ok c) (ht : t.eval = .ok d) : c = d := by
  apply value_inj
  rw [C57_sum_exact s c hs, C57_sum_exact t d ht]
  exact (hp.map value).sum_eq

example := C57_order_irrelevant (.node (.node (.leaf ⟨15⟩) (.leaf ⟨-40⟩)) (.leaf (⟨32000⟩ : FP .i16 1)))
  (.node (.leaf ⟨-40⟩) (.node (.leaf ⟨15⟩) (.leaf ⟨32000⟩))) ⟨31975⟩ ⟨31975⟩ (by decide +kernel)
  (by decide +kernel) (by decide +kernel)

/-- C57: `cadd` is commutative, including the error case. -/
theorem C57_comm (a b : FP L P) : FP.cadd a b = FP.cadd b a := by
  have h := C01_cadd_exact b a
  rw [add_comm] at h
  exact (C01_cadd_exact a b).unique h

example : FP.cadd (⟨-15⟩ : FP .i16 1) ⟨7⟩ = .ok ⟨-8⟩ ∧ FP.cadd (⟨7⟩ : FP .i16 1) ⟨-15⟩ = .ok ⟨-8⟩ := by
  decide

/-- C57: subtracting what was added gives the value back. -/
theorem C57_cancel (a b c : FP L P) (h : FP.cadd a b = .ok c) : FP.csub c b = .ok a := by
  rw [(C02_csub_exact c b).ok_iff, C01_cadd_ok a b c h]; ring

example := C57_cancel (⟨300000000⟩ : FP .i64 9) ⟨500000000⟩ ⟨800000000⟩ (by decide)

example : (Sum.node (.node (.leaf (⟨1⟩ : FP .i16 2)) (.leaf ⟨2⟩)) (.leaf ⟨3⟩)).eval = .ok ⟨6⟩ := by
  decide
-- the grouping matters only for whether an intermediate overflows
example : (Sum.node (.node (.leaf (FP.max : FP .i16 2)) (.leaf ⟨1⟩)) (.leaf ⟨-1⟩)).eval =
    .err .overflow := by decide
example : (Sum.node (.leaf (FP.max : FP .i16 2)) (.node (.leaf ⟨1⟩) (.leaf ⟨-1⟩))).eval =
    .ok FP.max := by decide
example : FP.cadd (⟨5⟩ : FP .i64 9) ⟨-9⟩ = .ok ⟨-4⟩ := by decide

/-! ## C58 -/

/-- One step of a computation with the exact operations. -/
inductive ExactStep (L : Layout) (P : Nat)
  | add (x : FP L P)
  | sub (x : FP L P)
  | mul (n : BitVec L.bits)
  | neg

/-- The step as the crate performs it. -/
def ExactStep.run : ExactStep L P → FP L P → Res ArithErr (FP L P)
  | .add x, a => FP.cadd a x
  | .sub x, a => FP.csub a x
  | .mul n, a => FP.cmul a n
  | .neg, a => FP.cneg a

/-- The step on rational numbers. -/
def ExactStep.spec : ExactStep L P → ℚ → ℚ
  | .add x, q => q + value x
  | .sub x, q => q - value x
  | .mul n, q => q * (n.toInt : ℚ)
  | .neg, q => -q

/-- A sequence of steps, stopping at the first error. -/
def runSteps : List (ExactStep L P) → FP L P → Res ArithErr (FP L P)
  | [], a => .ok a
  | s :: ss, a => do
    let b ← s.run a
    runSteps ss b

/-- The same sequence on rational numbers. -/
def specSteps : List (ExactStep L P) → ℚ → ℚ
  | [], q => q
  | s :: ss, q => specSteps ss (s.spec q)

theorem step_exact (s : ExactStep L P) (a : FP L P) :
    ExactOr ArithErr.overflow (s.run a) (s.spec (value a)) := by
  cases s
  · exact C01_cadd_exact _ _
  · exact C02_csub_exact _ _
  · exact C03_cmul_exact _ _
  · exact C04_cneg_exact _

/-- C58: a successful sequence of arbitrary length computes the exact rational result. -/
theorem C58_sequence_exact (ss : List (ExactStep L P)) (a c : FP L P)
    (h : runSteps ss a = .ok c) : value c = specSteps ss (value a) := by
  induction ss generalizing a with
  | nil => cases h; rfl
  | cons s ss ih =>
    simp only [runSteps] at h
    cases hs : s.run a with
    | ok b =>
      rw [hs, ok_bind] at h
      rw [ih b h, ((step_exact s a).ok_iff b).1 hs]; rfl
    | err e => rw [hs, err_bind] at h; cases h
    | fault k => rw [hs, fault_bind] at h; cases h

example := C58_sequence_exact [.add ⟨15⟩, .mul 3, .neg, .sub (⟨7⟩ : FP .i16 1)] ⟨100⟩ ⟨-352⟩
  (by decide +kernel)

/-- C58: it succeeds iff every intermediate rational value is representable, and reports
`Overflow` otherwise. -/
theorem C58_sequence_succeeds (ss : List (ExactStep L P)) (a : FP L P) :
    ((∀ k ≤ ss.length, Representable L P (specSteps (ss.take k) (value a))) →
      ∃ c, runSteps ss a = .ok c) ∧
    ((∃ k ≤ ss.length, ¬ Representable L P (specSteps (ss.take k) (value a))) →
      runSteps ss a = .err .overflow) := by
  induction ss generalizing a with
  | nil =>
    refine ⟨fun _ => ⟨a, rfl⟩, ?_⟩
    rintro ⟨k, _, hk⟩
    exact absurd ⟨a, by simp [specSteps]⟩ hk
  | cons s ss ih =>
    by_cases hr : Representable L P (s.spec (value a))
    · obtain ⟨b, hb, eb⟩ := (step_exact s a).1 hr
      obtain ⟨i1, i2⟩ := ih b
      simp only [runSteps, hb, ok_bind]
      constructor
      · intro h
        apply i1
        intro k hk
        have := h (k + 1) (by simpa using hk)
        rwa [List.take_succ_cons, specSteps, ← eb] at this
      · rintro ⟨k, hk, hn⟩
        apply i2
        match k, hk, hn with
        | 0, _, hn => exact absurd ⟨a, by simp [specSteps]⟩ hn
        | k + 1, hk, hn =>
          refine ⟨k, by simpa using hk, ?_⟩
          rwa [List.take_succ_cons, specSteps, ← eb] at hn
    · simp only [runSteps, (step_exact s a).2 hr, err_bind]
      constructor
      · intro h
        exact absurd (h 1 (by simp)) (by simpa [specSteps] using hr)
      · intro _; trivial

example : runSteps [.add ⟨250⟩, .mul 3, .neg, .sub ⟨50⟩] (⟨100⟩ : FP .i16 2) = .ok ⟨-1100⟩ := by
  decide
example : runSteps [.mul 3, .neg, .mul 1000, .sub ⟨50⟩] (⟨100⟩ : FP .i16 2) = .err .overflow := by
  decide

/-! ## C60 -/

/-- C60: the raw accessors are mutually inverse and `from_bits` scales by `10^-P`. -/
theorem C60_accessors (x : FP L P) (b : BitVec L.bits) :
    (FP.fromBits x.intoBits : FP L P) = x ∧ (FP.fromBits b : FP L P).intoBits = b ∧
    x.asBits = x.intoBits ∧ value (FP.fromBits b : FP L P) = (b.toInt : ℚ) / 10 ^ P :=
  ⟨rfl, rfl, rfl, rfl⟩

example : (FP.fromBits (-125) : FP .i16 2).intoBits = -125 ∧ (⟨-125⟩ : FP .i16 2).asBits = -125 := by
  decide

/-- C60: distinct raw values denote distinct numbers and every value has a raw value. -/
theorem C60_faithful (b c : BitVec L.bits)
    (h : value (FP.fromBits b : FP L P) = value (FP.fromBits c : FP L P)) : b = c :=
  congrArg FP.inner (value_inj h)

example : (5 : BitVec 16) = BitVec.ofInt 16 5 :=
  C60_faithful (L := .i16) (P := 1) 5 (BitVec.ofInt 16 5) (by decide +kernel)

example : value (FP.fromBits 5 : FP .i16 1) = 1 / 2 := by
  rw [value_eq _ 5 (by decide)]; norm_num

end Fixnum
