import Verif.IntegralBasic
import Verif.Props.Division

/-!
# Properties C16–C20: half sums, integral parts, rounding to a multiple
-/

namespace Fixnum

open Res Spec

variable {L : Layout} {P : Nat} {ε : Type}

/-! ## C16, C17 -/

theorem nearest_half_nonneg {k : Int} (h : 0 ≤ k) :
    Spec.round .nearest ((k : ℚ) / 2) = Spec.round .ceil ((k : ℚ) / 2) := by
  have h0 : (0 : ℚ) ≤ (k : ℚ) / 2 := by
    have : (0 : ℚ) ≤ k := by exact_mod_cast h
    positivity
  simp only [Spec.round, nearest, if_pos h0]
  rw [Int.floor_eq_iff]
  rcases Int.even_or_odd' k with ⟨c, hc | hc⟩
  · have : (k : ℚ) / 2 = (c : Int) := by rw [hc]; push_cast; ring
    rw [this, Int.ceil_intCast]
    constructor <;> linarith
  · have : (k : ℚ) / 2 = (c : ℚ) + 1 / 2 := by rw [hc]; push_cast; ring
    have hce : ⌈(c : ℚ) + 1 / 2⌉ = c + 1 := by
      rw [Int.ceil_eq_iff]; push_cast; constructor <;> linarith
    rw [this, hce]; push_cast
    constructor <;> linarith

theorem round_int_add (mode : RoundMode) (hm : mode ≠ .nearest) (m : Int) (q : ℚ) :
    Spec.round mode ((m : ℚ) + q) = m + Spec.round mode q := by
  cases mode with
  | nearest => exact absurd rfl hm
  | ceil => exact Int.ceil_intCast_add m q
  | floor => exact Int.floor_intCast_add m q

/-- The mode in which `half_sum` effectively rounds: `Nearest` becomes `Ceil` when both operands
have the same sign. -/
def halfMode (mode : RoundMode) (a b : Int) : RoundMode :=
  if mode = .nearest ∧ a.sign = b.sign then .ceil else mode

theorem halfSumRaw_round (mode : RoundMode) (a b : Int) :
    halfSumRaw mode a b = Spec.round (halfMode mode a b) (((a : ℚ) + b) / 2) := by
  unfold halfSumRaw halfMode
  by_cases h : a.sign = b.sign
  · rw [if_neg (not_not.2 h), ← round_div mode _ (by norm_num)]
    have e : ((a : ℚ) + b) / 2 = ((min a b : Int) : ℚ) +
        ((max a b - min a b : Int) : ℚ) / ((2 : Int) : ℚ) := by
      rcases le_total a b with h | h
      · rw [min_eq_left h, max_eq_right h]; push_cast; ring
      · rw [min_eq_right h, max_eq_left h]; push_cast; ring
    by_cases hm : mode = .nearest
    · rw [if_pos ⟨hm, h⟩, hm, e, round_int_add _ (by simp)]
      congr 1
      exact nearest_half_nonneg (by omega)
    · rw [if_neg (fun hc => hm hc.1), e, round_int_add _ hm]
  · rw [if_pos h, if_neg (fun hc => h hc.2), ← round_div mode _ (by norm_num)]
    congr 1; push_cast; rfl

theorem halfSum_value (cfg : Cfg) (a b : FP L P) (mode : RoundMode) :
    ∃ r, (FP.halfSum cfg a b mode : Res ε (FP L P)) = .ok r ∧
      value r = roundTo P (halfMode mode a.inner.toInt b.inner.toInt)
        ((value a + value b) / 2) := by
  obtain ⟨h1, h2⟩ := halfSum_spec (ε := ε) cfg a b mode
  refine ⟨_, h1, ?_⟩
  rw [value_ofInt h2, halfSumRaw_round]
  have hp := ten_pow_ne P
  unfold roundTo value
  congr 3
  field_simp

/-- C16: `half_sum` never fails, and for `Floor` and `Ceil` is `(a+b)/2` rounded.  No hypothesis on
the operands: `MIN` and `MAX` are included, as is every precision. -/
theorem C16_half_sum_directed (cfg : Cfg) (a b : FP L P) (mode : RoundMode)
    (hm : mode ≠ .nearest) :
    ∃ r, (FP.halfSum cfg a b mode : Res ε (FP L P)) = .ok r ∧
      value r = roundTo P mode ((value a + value b) / 2) := by
  obtain ⟨r, h1, h2⟩ := halfSum_value (ε := ε) cfg a b mode
  refine ⟨r, h1, ?_⟩
  rw [h2]; unfold halfMode; rw [if_neg (fun h => hm h.1)]

example := C16_half_sum_directed (ε := Unit) debugCfg (FP.min : FP .i64 9) FP.max .floor (by decide)

/-- C16 for `Nearest`: within half a unit of the last place of the exact half sum. -/
theorem C16_half_sum_nearest (cfg : Cfg) (a b : FP L P) :
    ∃ r, (FP.halfSum cfg a b .nearest : Res ε (FP L P)) = .ok r ∧
      |(value a + value b) / 2 - value r| ≤ 1 / 2 * (1 / 10 ^ P) := by
  obtain ⟨h1, h2⟩ := halfSum_spec (ε := ε) cfg a b .nearest
  refine ⟨_, h1, ?_⟩
  have hp := ten_pow_pos P
  rw [value_ofInt h2, halfSumRaw_round]
  set x := a.inner.toInt
  set y := b.inner.toInt
  have key : |((x : ℚ) + y) / 2 - Spec.round (halfMode .nearest x y) (((x : ℚ) + y) / 2)| ≤ 1 / 2 := by
    unfold halfMode
    split
    · -- ceiling of a half integer
      rcases Int.even_or_odd' (x + y) with ⟨c, hc | hc⟩
      · have e : ((x : ℚ) + y) / 2 = (c : Int) := by
          rw [show (x : ℚ) + y = ((x + y : Int) : ℚ) by push_cast; rfl, hc]; push_cast; ring
        rw [e, round_int]; norm_num
      · have e : ((x : ℚ) + y) / 2 = (c : ℚ) + 1 / 2 := by
          rw [show (x : ℚ) + y = ((x + y : Int) : ℚ) by push_cast; rfl, hc]; push_cast; ring
        have hce : Spec.round .ceil ((c : ℚ) + 1 / 2) = c + 1 := by
          simp only [Spec.round]
          rw [Int.ceil_eq_iff]; push_cast; constructor <;> linarith
        rw [e, hce]; push_cast
        rw [abs_le]; constructor <;> linarith
    · exact round_nearest_spec _
  have e : (value a + value b) / 2 - (Spec.round (halfMode .nearest x y) (((x : ℚ) + y) / 2) : ℚ) / 10 ^ P =
      (((x : ℚ) + y) / 2 - Spec.round (halfMode .nearest x y) (((x : ℚ) + y) / 2)) * (1 / 10 ^ P) := by
    unfold value; field_simp; rfl
  rw [e, abs_mul, abs_of_pos (show (0 : ℚ) < 1 / 10 ^ P by positivity)]
  exact mul_le_mul_of_nonneg_right key (by positivity)

example : (FP.halfSum debugCfg (⟨5⟩ : FP .i64 1) ⟨-2⟩ .nearest : Res Unit _) = .ok ⟨2⟩ ∧
    (FP.halfSum debugCfg (⟨5⟩ : FP .i64 1) ⟨2⟩ .nearest : Res Unit _) = .ok ⟨4⟩ := by decide +kernel

/-- C16: `half_sum` is symmetric. -/
theorem C16_half_sum_comm (cfg : Cfg) (a b : FP L P) (mode : RoundMode) :
    (FP.halfSum cfg a b mode : Res ε (FP L P)) = FP.halfSum cfg b a mode := by
  rw [(halfSum_spec cfg a b mode).1, (halfSum_spec cfg b a mode).1]
  congr 3
  unfold halfSumRaw
  rw [min_comm, max_comm, add_comm a.inner.toInt]
  by_cases h : a.inner.toInt.sign = b.inner.toInt.sign
  · rw [if_neg (not_not.2 h), if_neg (not_not.2 h.symm)]
  · rw [if_pos h, if_pos (fun hc => h hc.symm)]

/-- C16: the half sum lies between its operands. -/
theorem C16_half_sum_between (cfg : Cfg) (a b r : FP L P) (mode : RoundMode)
    (h : (FP.halfSum cfg a b mode : Res ε (FP L P)) = .ok r) :
    min (value a) (value b) ≤ value r ∧ value r ≤ max (value a) (value b) := by
  obtain ⟨r', h1, h2⟩ := halfSum_value (ε := ε) cfg a b mode
  rw [h] at h1
  cases h1
  rw [h2]
  constructor
  · rcases le_total (value a) (value b) with h | h
    · rw [min_eq_left h, ← roundTo_value (halfMode mode a.inner.toInt b.inner.toInt) a]
      exact roundTo_mono P _ (by linarith [roundTo_value (halfMode mode a.inner.toInt b.inner.toInt) a])
    · rw [min_eq_right h, ← roundTo_value (halfMode mode a.inner.toInt b.inner.toInt) b]
      exact roundTo_mono P _ (by linarith [roundTo_value (halfMode mode a.inner.toInt b.inner.toInt) b])
  · rcases le_total (value a) (value b) with h | h
    · rw [max_eq_right h, ← roundTo_value (halfMode mode a.inner.toInt b.inner.toInt) b]
      exact roundTo_mono P _ (by linarith [roundTo_value (halfMode mode a.inner.toInt b.inner.toInt) b])
    · rw [max_eq_left h, ← roundTo_value (halfMode mode a.inner.toInt b.inner.toInt) a]
      exact roundTo_mono P _ (by linarith [roundTo_value (halfMode mode a.inner.toInt b.inner.toInt) a])

example := C16_half_sum_between (ε := Unit) debugCfg (⟨-3⟩ : FP .i64 9) ⟨8⟩ ⟨2⟩ .floor (by decide +kernel)

example : (FP.halfSum debugCfg (FP.max : FP .i64 9) FP.max .nearest : Res Unit _) = .ok FP.max ∧
    (FP.halfSum debugCfg (FP.min : FP .i64 9) FP.max .floor : Res Unit _) = .ok ⟨-1⟩ ∧
    (FP.halfSum debugCfg (⟨-3⟩ : FP .i64 9) ⟨-4⟩ .floor : Res Unit _) = .ok ⟨-4⟩ ∧
    (FP.halfSum debugCfg (⟨-3⟩ : FP .i64 9) ⟨-4⟩ .ceil : Res Unit _) = .ok ⟨-3⟩ := by decide +kernel

/-- C17: `half_sum(.., Nearest)` is the half sum rounded to nearest, halves away from zero.
Missing: both operands negative (the code then breaks ties upwards), see `C17_half_sum_ties_false`. -/
theorem C17_half_sum_ties_partial (cfg : Cfg) (a b : FP L P)
    (h : ¬ (value a < 0 ∧ value b < 0)) :
    ∃ r, (FP.halfSum cfg a b .nearest : Res ε (FP L P)) = .ok r ∧
      value r = roundTo P .nearest ((value a + value b) / 2) := by
  obtain ⟨r, h1, h2⟩ := halfSum_value (ε := ε) cfg a b .nearest
  refine ⟨r, h1, ?_⟩
  rw [h2]
  unfold halfMode
  split
  case isFalse => rfl
  case isTrue hs =>
    -- both operands have the same, non-negative sign
    have hneg : ∀ x : FP L P, value x < 0 ↔ x.inner.toInt < 0 := by
      intro x
      unfold value
      rw [div_lt_iff₀ (ten_pow_pos P), zero_mul]
      exact_mod_cast Iff.rfl
    rw [hneg, hneg] at h
    have h0 : 0 ≤ a.inner.toInt + b.inner.toInt := by
      have hs2 := hs.2
      rcases lt_trichotomy a.inner.toInt 0 with h1 | h1 | h1 <;>
        rcases lt_trichotomy b.inner.toInt 0 with h2 | h2 | h2
      all_goals
        first
        | rw [Int.sign_eq_neg_one_of_neg h1] at hs2
        | rw [Int.sign_eq_one_of_pos h1] at hs2
        | rw [h1, Int.sign_zero] at hs2
      all_goals
        first
        | rw [Int.sign_eq_neg_one_of_neg h2] at hs2
        | rw [Int.sign_eq_one_of_pos h2] at hs2
        | rw [h2, Int.sign_zero] at hs2
      all_goals omega
    have e : (value a + value b) / 2 * 10 ^ P = ((a.inner.toInt + b.inner.toInt : Int) : ℚ) / 2 := by
      have hp := ten_pow_ne P
      unfold value; push_cast; field_simp
    unfold roundTo
    rw [e, nearest_half_nonneg h0]

example := C17_half_sum_ties_partial (ε := Unit) debugCfg (⟨-4⟩ : FP .i64 9) ⟨1⟩ (by decide +kernel)

/-- C17, what happens for two negative operands: ties are broken upwards (towards zero), the result
is the ceiling. -/
theorem C17_half_sum_negative (cfg : Cfg) (a b : FP L P) (ha : value a < 0) (hb : value b < 0) :
    ∃ r, (FP.halfSum cfg a b .nearest : Res ε (FP L P)) = .ok r ∧
      value r = roundTo P .ceil ((value a + value b) / 2) := by
  obtain ⟨r, h1, h2⟩ := halfSum_value (ε := ε) cfg a b .nearest
  refine ⟨r, h1, ?_⟩
  have hneg : ∀ x : FP L P, value x < 0 → x.inner.toInt < 0 := by
    intro x hx
    unfold value at hx
    rw [div_lt_iff₀ (ten_pow_pos P), zero_mul] at hx
    exact_mod_cast hx
  rw [h2]
  unfold halfMode
  rw [if_pos ⟨rfl, by rw [Int.sign_eq_neg_one_of_neg (hneg a ha), Int.sign_eq_neg_one_of_neg (hneg b hb)]⟩]

example := C17_half_sum_negative (ε := Unit) debugCfg (⟨-4⟩ : FP .i64 9) ⟨-1⟩ (by decide +kernel)
  (by decide +kernel)

/-- C17 is false: `half_sum(-0.000000001, -0.000000002, Nearest) = -0.000000001`, although the exact
half sum `-0.0000000015` is a tie and the value farther from zero is `-0.000000002`. -/
theorem C17_half_sum_ties_false :
    (FP.halfSum debugCfg (⟨-1⟩ : FP .i64 9) ⟨-2⟩ .nearest : Res Unit _) = .ok ⟨-1⟩ ∧
    roundTo 9 .nearest ((value (⟨-1⟩ : FP .i64 9) + value (⟨-2⟩ : FP .i64 9)) / 2) = -2 / 10 ^ 9 := by
  refine ⟨by decide +kernel, ?_⟩
  rw [roundTo_div .nearest _ (n := -3) (d := 2) (by norm_num)
    (by rw [value_eq _ (-1) (by decide), value_eq _ (-2) (by decide)]; norm_num)]
  have : roundDiv .nearest (-3) 2 = -2 := by decide
  rw [this]; norm_num

example : ¬ (value (⟨-3⟩ : FP .i64 9) < 0 ∧ value (⟨2⟩ : FP .i64 9) < 0) := by
  rw [value_eq _ (-3) (by decide), value_eq _ 2 (by decide)]; norm_num
example : (FP.halfSum debugCfg (⟨-4⟩ : FP .i64 9) ⟨1⟩ .nearest : Res Unit _) = .ok ⟨-2⟩ ∧
    (FP.halfSum debugCfg (⟨4⟩ : FP .i64 9) ⟨1⟩ .nearest : Res Unit _) = .ok ⟨3⟩ := by decide +kernel

/-! ## C18 -/

theorem value_div_form (a : FP L P) :
    value a = (a.inner.toInt : ℚ) / ((10 ^ P : Int) : ℚ) := by
  unfold value; push_cast; rfl

/-- C18: `integral` is the value rounded to an integer.
Missing: the value `MIN`, and for `Nearest` on `FixedPoint<i128, U38>` fractions above `MAX/2`
units; the claim is false there. -/
theorem C18_integral_partial {cfg : Cfg} (hv : Valid cfg L P) (a : FP L P) (mode : RoundMode)
    (hm : value a ≠ minValue L P)
    (hn : mode = .nearest → 2 * |a.inner.toInt.tmod (10 ^ P)| ≤ rawMax L) :
    ∃ i, (FP.integral cfg a mode : Res ε _) = .ok i ∧ i.toInt = Spec.round mode (value a) := by
  have hm' : a.inner.toInt ≠ rawMin L := by
    intro h; apply hm; unfold value minValue; rw [h]
  obtain ⟨h1, h2⟩ := integral_spec (ε := ε) hv a mode hm' hn
  refine ⟨_, h1, ?_⟩
  rw [toInt_ofInt_of_fits (bits_pos L) h2, value_div_form, round_div mode _ (ten_pow_int_ne P)]

example := C18_integral_partial (ε := Unit) (cfg := debugCfg) (by decide) (⟨-8273519000000⟩ : FP .i64 9)
  .nearest (by decide +kernel) (by decide +kernel)

theorem fraction_ok {cfg : Cfg} (hv : Valid cfg L P) (hne : ¬ (L = .i128 ∧ P = 38)) (n : Int) :
    2 * |n.tmod (10 ^ P)| ≤ rawMax L := by
  have h1 := two_ten_pow_le hv hne
  have h2 := tmod_abs_lt n (ten_pow_int_ne P)
  have h3 : |(10 : Int) ^ P| = 10 ^ P := abs_of_pos (by positivity)
  omega

/-- C18 for all types: only `MIN`, and `Nearest` on `FixedPoint<i128, U38>`, are excluded. -/
theorem C18_integral_types_partial {cfg : Cfg} (hv : Valid cfg L P) (a : FP L P) (mode : RoundMode)
    (hm : value a ≠ minValue L P) (hne : mode = .nearest → ¬ (L = .i128 ∧ P = 38)) :
    ∃ i, (FP.integral cfg a mode : Res ε _) = .ok i ∧ i.toInt = Spec.round mode (value a) :=
  C18_integral_partial hv a mode hm fun h => fraction_ok hv (hne h) _

example := C18_integral_types_partial (ε := Unit) (cfg := debugCfg) (by decide)
  (⟨-8273519000000⟩ : FP .i64 9) .floor (by decide +kernel) (by decide)

/-- C18 is false for `MIN`: with overflow checks it panics for every type and mode. -/
theorem C18_integral_min_false {cfg : Cfg} (hv : Valid cfg L P) (hc : cfg.overflowChecks = true)
    (mode : RoundMode) : (FP.integral cfg (FP.min : FP L P) mode : Res ε _) = .panic := by
  have hw := bits_pos L
  have hcf := coef_toInt hv
  have hpos : (1 : Int) ≤ 10 ^ P := one_le_pow₀ (by norm_num)
  have hmin : ¬ ((FP.min : FP L P).inner.toInt = iMin L.bits ∧
      (BitVec.ofInt L.bits (10 ^ P)).toInt = -1) := by
    rw [hcf]; rintro ⟨_, h⟩; omega
  have hfq := tdiv_fits (by have := bits_gt L; omega) (FP.min : FP L P).inner
    (BitVec.ofInt L.bits (10 ^ P)) hmin
  rw [hcf] at hfq
  unfold FP.integral
  rw [coef_spec hv, ok_bind]
  dsimp only
  unfold SInt.div SInt.abs
  rw [hcf, if_neg (by omega), if_pos hfq, ok_bind,
    SInt.arith_panic cfg (abs_not_fits (toInt_fits _) (min_toInt L P)) hc, fault_bind]

example := C18_integral_min_false (ε := Unit) (L := .i64) (P := 9) (cfg := debugCfg) (by decide)
  (by decide) .floor

/-- C18: with overflow checks, `integral` panics exactly on `MIN` and, for `Nearest`, on a fraction
above `MAX/2` units (which only `FixedPoint<i128, U38>` has). -/
theorem C18_integral_panics_iff {cfg : Cfg} (hv : Valid cfg L P) (hc : cfg.overflowChecks = true)
    (a : FP L P) (mode : RoundMode) :
    (FP.integral cfg a mode : Res ε _) = .panic ↔
      value a = minValue L P ∨
        (mode = .nearest ∧ rawMax L < 2 * |a.inner.toInt.tmod (10 ^ P)|) := by
  have hmin : value a = minValue L P ↔ a.inner.toInt = rawMin L := by
    unfold value minValue
    rw [div_left_inj' (ten_pow_ne P)]
    exact_mod_cast Iff.rfl
  constructor
  · intro h
    by_contra hne
    rw [not_or, not_and, not_lt] at hne
    obtain ⟨i, hi, _⟩ := C18_integral_partial (ε := ε) hv a mode hne.1 hne.2
    rw [hi] at h; cases h
  · intro h
    by_cases hm : value a = minValue L P
    · have : a = FP.min := value_inj (by rw [hm, C52_bounds_value.1])
      rw [this]
      exact C18_integral_min_false hv hc mode
    · obtain ⟨rfl, h2⟩ := h.resolve_left hm
      rw [integral_of_test hv a .nearest (fun h => hm (hmin.2 h))]
      have hfr : Fits L.bits |a.inner.toInt.tmod (10 ^ P)| := by
        have h1 := tmod_abs_lt a.inner.toInt (ten_pow_int_ne P)
        rw [abs_of_pos (show (0 : Int) < 10 ^ P by positivity)] at h1
        have h0 := abs_nonneg (a.inner.toInt.tmod (10 ^ P))
        have := hv.1; rw [rawMax_half] at this; rw [fits_half]; have := half_pos L; omega
      unfold FP.integralTest SInt.add
      rw [if_pos rfl, toInt_ofInt_of_fits (bits_pos L) hfr, SInt.arith_panic cfg _ hc]
      · rfl
      · rw [fits_half]; rw [rawMax_half] at h2; omega

example := (C18_integral_panics_iff (ε := Unit) (cfg := debugCfg) (by decide) (by decide)
  (⟨90000000000000000000000000000000000000⟩ : FP .i128 38) .nearest).2 (by decide +kernel)

/-- C18, without overflow checks: in the exceptional cases the value is truncated towards zero. -/
theorem C18_integral_wrapped {cfg : Cfg} (hv : Valid cfg L P) (hc : cfg.overflowChecks = false)
    (a : FP L P) (mode : RoundMode)
    (h : value a = minValue L P ∨
        (mode = .nearest ∧ rawMax L < 2 * |a.inner.toInt.tmod (10 ^ P)|)) :
    ∃ i, (FP.integral cfg a mode : Res ε _) = .ok i ∧
      i.toInt = Spec.round (if 0 ≤ value a then .floor else .ceil) (value a) := by
  have hmin : value a = minValue L P ↔ a.inner.toInt = rawMin L := by
    unfold value minValue
    rw [div_left_inj' (ten_pow_ne P)]
    exact_mod_cast Iff.rfl
  have hw := bits_pos L
  have hcf := coef_toInt hv
  have hp0 : (0 : Int) < 10 ^ P := by positivity
  have hfq : Fits L.bits (a.inner.toInt.tdiv (10 ^ P)) := by
    have := tdiv_fits (by have := bits_gt L; omega) a.inner (BitVec.ofInt L.bits (10 ^ P))
      (by rw [hcf]; rintro ⟨_, h⟩; omega)
    rwa [hcf] at this
  have h0 : 0 ≤ value a ↔ 0 ≤ a.inner.toInt := by
    unfold value
    rw [le_div_iff₀ (ten_pow_pos P), zero_mul]
    exact_mod_cast Iff.rfl
  refine ⟨BitVec.ofInt _ (a.inner.toInt.tdiv (10 ^ P)), ?_, ?_⟩
  swap
  · rw [toInt_ofInt_of_fits hw hfq, value_div_form, round_div _ _ hp0.ne', ← value_div_form]
    unfold roundDiv
    rw [if_neg, add_zero]
    rw [Int.sign_eq_one_of_pos hp0, mul_one]
    by_cases hn : 0 ≤ a.inner.toInt
    · rw [if_pos (h0.2 hn)]
      rintro ⟨_, h⟩
      rcases hn.eq_or_lt with h' | h'
      · rw [← h'] at h; cases h
      · rw [Int.sign_eq_one_of_pos h'] at h; omega
    · rw [if_neg (fun h => hn (h0.1 h))]
      rintro ⟨_, h⟩
      rw [Int.sign_eq_neg_one_of_neg (by omega)] at h; omega
  have hfr : Fits L.bits |a.inner.toInt.tmod (10 ^ P)| := by
    have h1 := tmod_abs_lt a.inner.toInt (ten_pow_int_ne P)
    rw [abs_of_pos hp0] at h1
    have h0 := abs_nonneg (a.inner.toInt.tmod (10 ^ P))
    have := hv.1; rw [rawMax_half] at this; rw [fits_half]; have := half_pos L; omega
  by_cases hm : value a = minValue L P
  · have hr := hmin.1 hm
    have hhp := half_pos L
    have hfm : Fits L.bits (rawMin L) := by rw [fits_half, rawMin_half]; omega
    have hab : (SInt.abs cfg a.inner : Res ε _) = .ok (BitVec.ofInt _ (rawMin L)) := by
      unfold SInt.abs
      rw [SInt.arith_wrap cfg hc, hr, rawMin_half, abs_neg, abs_of_pos (by omega)]
      congr 1
      apply BitVec.eq_of_toInt_eq
      rw [← rawMin_half, toInt_ofInt_of_fits hw hfm, rawMin_half,
        toInt_ofInt_sub hw (z := half L) (by
          rw [show (2 : Int) ^ L.bits = 2 * half L by cases L <;> decide, fits_half]; omega)]
      rw [show (2 : Int) ^ L.bits = 2 * half L by cases L <;> decide]; omega
    have hfm' : Fits L.bits ((rawMin L).tdiv (10 ^ P)) := by rw [← hr]; exact hfq
    have hl0 : (rawMin L).tmod (10 ^ P) ≤ 0 :=
      tmod_nonpos' _ (by rw [rawMin_half]; omega)
    have hfl : Fits L.bits ((rawMin L).tmod (10 ^ P)) := by
      rw [hr, abs_of_nonpos hl0] at hfr
      rw [fits_half] at *; omega
    have ht : ((FP.integralTest cfg (BitVec.ofInt L.bits (10 ^ P))
        (BitVec.ofInt _ ((rawMin L).tmod (10 ^ P))) (SInt.signum a.inner) mode) : Res ε Bool) =
        .ok false := by
      unfold FP.integralTest
      split
      · have hcs : (rawMin L).tmod (10 ^ P) + (rawMin L).tmod (10 ^ P) < 10 ^ P ∧
            Fits L.bits ((rawMin L).tmod (10 ^ P) + (rawMin L).tmod (10 ^ P)) := by
          refine ⟨by omega, ?_⟩
          by_contra hc'
          obtain ⟨rfl, rfl⟩ := rmul_large hv _ hc'
          exact hc' (by decide +kernel)
        unfold SInt.add
        rw [toInt_ofInt_of_fits hw hfl, SInt.arith_fits cfg hcs.2, ok_bind, hcf,
          toInt_ofInt_of_fits hw hcs.2]
        rw [decide_eq_false (by omega)]
      · rw [toInt_ofInt_of_fits hw hfl, decide_eq_false (p := 0 < _) (by omega), Bool.and_false]
    unfold FP.integral
    rw [coef_spec hv, ok_bind]
    dsimp only
    rw [hab]
    unfold SInt.div SInt.rem
    rw [hcf, if_neg hp0.ne', if_pos hfq, ok_bind, ok_bind, toInt_ofInt_of_fits hw hfm,
      if_neg hp0.ne', if_pos hfm', ok_bind, ht, ok_bind]
    rfl
  · obtain ⟨rfl, h2⟩ := h.resolve_left hm
    rw [integral_of_test hv a .nearest (fun h => hm (hmin.2 h))]
    have h1 := tmod_abs_lt a.inner.toInt hp0.ne'
    rw [abs_of_pos hp0] at h1
    have hv1 := hv.1
    have hhp := half_pos L
    have h3 := abs_nonneg (a.inner.toInt.tmod (10 ^ P))
    have e2 : (2 : Int) ^ L.bits = 2 * half L := by cases L <;> decide
    generalize |a.inner.toInt.tmod (10 ^ P)| = l at *
    rw [rawMax_half] at *
    unfold FP.integralTest SInt.add
    rw [if_pos rfl, toInt_ofInt_of_fits hw hfr, SInt.arith_wrap cfg hc, ok_bind, bind_ok', hcf,
      toInt_ofInt_sub hw (by rw [fits_half, e2]; omega), decide_eq_false (by rw [e2]; omega)]
    rfl

example := C18_integral_wrapped (ε := Unit) (cfg := releaseCfg) (by decide) (by decide)
  (⟨90000000000000000000000000000000000000⟩ : FP .i128 38) .nearest (by decide +kernel)

/-- C18 is false for `MIN` without overflow checks: `floor` of `-3.2768` is `-4`, the code returns
`-3`. -/
theorem C18_integral_false :
    (FP.integral releaseCfg (FP.min : FP .i16 4) .floor : Res Unit _) = .ok (-3) ∧
    Spec.round .floor (value (FP.min : FP .i16 4)) = -4 := by
  refine ⟨by decide +kernel, ?_⟩
  rw [value_eq _ (-32768) (by decide)]
  simp only [Spec.round]
  rw [Int.floor_eq_iff]; norm_num

/-- C18 is false for `Nearest` on `FixedPoint<i128, U38>`: `0.9` has the nearest integer `1`; the
code panics with overflow checks and returns `0` without. -/
theorem C18_integral_nearest_false :
    (FP.integral debugCfg (⟨BitVec.ofInt 128 (9 * 10 ^ 37)⟩ : FP .i128 38) .nearest : Res Unit _) =
      .panic ∧
    (FP.integral releaseCfg (⟨BitVec.ofInt 128 (9 * 10 ^ 37)⟩ : FP .i128 38) .nearest : Res Unit _) =
      .ok 0 ∧
    Spec.round .nearest (value (⟨BitVec.ofInt 128 (9 * 10 ^ 37)⟩ : FP .i128 38)) = 1 := by
  refine ⟨by decide +kernel, by decide +kernel, ?_⟩
  rw [value_eq _ (9 * 10 ^ 37) (by decide +kernel)]
  simp only [Spec.round, nearest]
  rw [if_pos (by norm_num), Int.floor_eq_iff]; norm_num

example : value (⟨-8273519000000⟩ : FP .i64 9) ≠ minValue .i64 9 := by
  rw [value_eq _ (-8273519000000) (by decide +kernel)]
  unfold minValue
  rw [show rawMin .i64 = -9223372036854775808 by decide +kernel]
  norm_num
example : (FP.integral debugCfg (⟨8273519000000⟩ : FP .i64 9) .floor : Res Unit _) = .ok 8273 ∧
    (FP.integral debugCfg (⟨8273519000000⟩ : FP .i64 9) .nearest : Res Unit _) = .ok 8274 ∧
    (FP.integral debugCfg (⟨8273519000000⟩ : FP .i64 9) .ceil : Res Unit _) = .ok 8274 ∧
    (FP.integral debugCfg (⟨-8273519000000⟩ : FP .i64 9) .floor : Res Unit _) = .ok (-8274) ∧
    (FP.integral debugCfg (⟨-8273519000000⟩ : FP .i64 9) .nearest : Res Unit _) = .ok (-8274) ∧
    (FP.integral debugCfg (⟨-8273519000000⟩ : FP .i64 9) .ceil : Res Unit _) = .ok (-8273) := by
  decide +kernel

/-! ## C19 -/

/-- "Returns exactly `q`, or panics if `q` is not representable." -/
def ExactOrPanic (r : Res ε (FP L P)) (q : ℚ) : Prop :=
  (Representable L P q → ∃ c, r = .ok c ∧ value c = q) ∧ (¬ Representable L P q → r = .panic)

theorem fromDecimal_unwrap {cfg : Cfg} (hv : Valid cfg L P) (i : BitVec L.bits) :
    ExactOrPanic (unwrap (FP.fromDecimal cfg i 0 : Res ConvErr (FP L P)) : Res ε (FP L P))
      (i.toInt : ℚ) := by
  rw [fromDecimal_zero hv]
  constructor
  · intro h
    rw [if_pos ((representable_int _).1 h), unwrap_ok]
    refine ⟨_, rfl, ?_⟩
    rw [value_ofInt ((representable_int _).1 h)]
    push_cast
    rw [mul_div_cancel_right₀ _ (ten_pow_ne P)]
  · intro h
    rw [if_neg (fun hf => h ((representable_int _).2 hf)), unwrap_err]

/-- C19: `floor` returns the greatest integer not above `x`, and panics exactly when that integer
is not representable. -/
theorem C19_floor {cfg : Cfg} (hv : Valid cfg L P) (a : FP L P) (hm : value a ≠ minValue L P) :
    ExactOrPanic (FP.floor cfg a : Res ε (FP L P)) (⌊value a⌋ : ℚ) := by
  obtain ⟨i, h1, h2⟩ := C18_integral_partial (ε := ε) hv a .floor hm (by simp)
  have := fromDecimal_unwrap (ε := ε) hv i
  rw [h2] at this
  unfold FP.floor
  rw [h1, ok_bind]
  exact this

example := C19_floor (ε := Unit) (cfg := debugCfg) (by decide) (⟨-8273519000000⟩ : FP .i64 9)
  (by decide +kernel)

/-- C19: `ceil` returns the least integer not below `x`, and panics exactly when that integer is not
representable. -/
theorem C19_ceil {cfg : Cfg} (hv : Valid cfg L P) (a : FP L P) (hm : value a ≠ minValue L P) :
    ExactOrPanic (FP.ceil cfg a : Res ε (FP L P)) (⌈value a⌉ : ℚ) := by
  obtain ⟨i, h1, h2⟩ := C18_integral_partial (ε := ε) hv a .ceil hm (by simp)
  have := fromDecimal_unwrap (ε := ε) hv i
  rw [h2] at this
  unfold FP.ceil
  rw [h1, ok_bind]
  exact this

example := C19_ceil (ε := Unit) (cfg := debugCfg) (by decide) (FP.max : FP .i64 9) (by decide +kernel)

/-- C19: `round` returns the nearest integer, halves away from zero, and panics exactly when that
integer is not representable.  Missing: `FixedPoint<i128, U38>` with a fraction above `MAX/2` units
(false there, see `C19_round_false`). -/
theorem C19_round_partial {cfg : Cfg} (hv : Valid cfg L P) (a : FP L P)
    (hm : value a ≠ minValue L P)
    (hn : 2 * |a.inner.toInt.tmod (10 ^ P)| ≤ rawMax L) :
    ExactOrPanic (FP.round cfg a : Res ε (FP L P)) (nearest (value a) : ℚ) := by
  obtain ⟨i, h1, h2⟩ := C18_integral_partial (ε := ε) hv a .nearest hm (fun _ => hn)
  have := fromDecimal_unwrap (ε := ε) hv i
  rw [h2] at this
  unfold FP.round
  rw [h1, ok_bind]
  exact this

example := C19_round_partial (ε := Unit) (cfg := debugCfg) (by decide) (⟨-8273519000000⟩ : FP .i64 9)
  (by decide +kernel) (by decide +kernel)

/-- C19: `round` on every type but `FixedPoint<i128, U38>`. -/
theorem C19_round_types_partial {cfg : Cfg} (hv : Valid cfg L P) (a : FP L P)
    (hm : value a ≠ minValue L P) (hne : ¬ (L = .i128 ∧ P = 38)) :
    ExactOrPanic (FP.round cfg a : Res ε (FP L P)) (nearest (value a) : ℚ) :=
  C19_round_partial hv a hm (fraction_ok hv hne _)

example := C19_round_types_partial (ε := Unit) (cfg := debugCfg) (by decide)
  (⟨-8273519000000⟩ : FP .i64 9) (by decide +kernel) (by decide)

theorem trunc_representable (a : FP L P) :
    Representable L P
      ((Spec.round (if 0 ≤ value a then .floor else .ceil) (value a) : Int) : ℚ) := by
  have hp := ten_pow_pos P
  have h1 : value a * 10 ^ P = a.inner.toInt := by
    unfold value; rw [div_mul_cancel₀ _ (ten_pow_ne P)]
  have hf := (fits_half L a.inner.toInt).1 (toInt_fits a.inner)
  rw [representable_int, fits_half]
  have hh := half_pos L
  split
  · rename_i h
    have h2 : (⌊value a⌋ : ℚ) * 10 ^ P ≤ a.inner.toInt := by
      rw [← h1]; exact mul_le_mul_of_nonneg_right (Int.floor_le _) hp.le
    have h3 : ⌊value a⌋ * 10 ^ P ≤ a.inner.toInt := by exact_mod_cast h2
    have h4 : 0 ≤ ⌊value a⌋ * (10 : Int) ^ P := mul_nonneg (Int.floor_nonneg.2 h) (by positivity)
    show _ ≤ ⌊value a⌋ * 10 ^ P ∧ ⌊value a⌋ * 10 ^ P ≤ _
    omega
  · rename_i h
    have h2 : (a.inner.toInt : ℚ) ≤ (⌈value a⌉ : ℚ) * 10 ^ P := by
      rw [← h1]; exact mul_le_mul_of_nonneg_right (Int.le_ceil _) hp.le
    have h3 : a.inner.toInt ≤ ⌈value a⌉ * 10 ^ P := by exact_mod_cast h2
    have h5 : ⌈value a⌉ ≤ 0 := Int.ceil_le.2 (by push_cast; linarith)
    have h4 : ⌈value a⌉ * (10 : Int) ^ P ≤ 0 := mul_nonpos_of_nonpos_of_nonneg h5 (by positivity)
    show _ ≤ ⌈value a⌉ * 10 ^ P ∧ ⌈value a⌉ * 10 ^ P ≤ _
    omega

/-- C19: with overflow checks `floor` and `ceil` of `MIN` panic, whether or not the integer is
representable. -/
theorem C19_floor_ceil_min {cfg : Cfg} (hv : Valid cfg L P) (hc : cfg.overflowChecks = true) :
    (FP.floor cfg (FP.min : FP L P) : Res ε (FP L P)) = .panic ∧
    (FP.ceil cfg (FP.min : FP L P) : Res ε (FP L P)) = .panic := by
  unfold FP.floor FP.ceil
  rw [C18_integral_min_false hv hc, C18_integral_min_false hv hc]
  exact ⟨rfl, rfl⟩

example := C19_floor_ceil_min (ε := Unit) (L := .i64) (P := 9) (cfg := debugCfg) (by decide) (by decide)

/-- C19: `round` with overflow checks outside the condition panics. -/
theorem C19_round_panics {cfg : Cfg} (hv : Valid cfg L P) (hc : cfg.overflowChecks = true)
    (a : FP L P) (h : value a = minValue L P ∨ rawMax L < 2 * |a.inner.toInt.tmod (10 ^ P)|) :
    (FP.round cfg a : Res ε (FP L P)) = .panic := by
  unfold FP.round
  rw [(C18_integral_panics_iff hv hc a .nearest).2 (h.imp id fun h => ⟨rfl, h⟩)]
  rfl

example := C19_round_panics (ε := Unit) (cfg := debugCfg) (by decide) (by decide)
  (⟨90000000000000000000000000000000000000⟩ : FP .i128 38) (by decide +kernel)

/-- C19: without overflow checks all three truncate `MIN` towards zero, which is always
representable; so `floor` of `MIN` is wrong, unless `MIN` is an integer, and `ceil` is right. -/
theorem C19_min_wrapped {cfg : Cfg} (hv : Valid cfg L P) (hc : cfg.overflowChecks = false) :
    ∃ r : FP L P, value r = (⌈minValue L P⌉ : ℚ) ∧
      (FP.floor cfg (FP.min : FP L P) : Res ε (FP L P)) = .ok r ∧
      (FP.ceil cfg (FP.min : FP L P) : Res ε (FP L P)) = .ok r ∧
      (FP.round cfg (FP.min : FP L P) : Res ε (FP L P)) = .ok r := by
  have hmin : value (FP.min : FP L P) = minValue L P := C52_bounds_value.1
  have hneg := minValue_neg L P
  have key : ∀ md, ∃ i, (FP.integral cfg (FP.min : FP L P) md : Res ε _) = .ok i ∧
      i.toInt = ⌈minValue L P⌉ := by
    intro md
    obtain ⟨i, h1, h2⟩ := C18_integral_wrapped (ε := ε) hv hc (FP.min : FP L P) md (.inl hmin)
    refine ⟨i, h1, ?_⟩
    rw [h2, hmin, if_neg (by linarith)]
    rfl
  have hr : Representable L P ((⌈minValue L P⌉ : Int) : ℚ) := by
    have := trunc_representable (FP.min : FP L P)
    rwa [hmin, if_neg (by linarith)] at this
  obtain ⟨i1, a1, b1⟩ := key .floor
  obtain ⟨i2, a2, b2⟩ := key .ceil
  obtain ⟨i3, a3, b3⟩ := key .nearest
  have e2 : i2 = i1 := BitVec.eq_of_toInt_eq (by rw [b1, b2])
  have e3 : i3 = i1 := BitVec.eq_of_toInt_eq (by rw [b1, b3])
  rw [e2] at a2
  rw [e3] at a3
  have hu := fromDecimal_unwrap (ε := ε) hv i1
  rw [b1] at hu
  obtain ⟨r, hr1, hr2⟩ := hu.1 hr
  refine ⟨r, hr2, ?_, ?_, ?_⟩
  · unfold FP.floor; rw [a1, ok_bind]; exact hr1
  · unfold FP.ceil; rw [a2, ok_bind]; exact hr1
  · unfold FP.round; rw [a3, ok_bind]; exact hr1

example := C19_min_wrapped (ε := Unit) (L := .i64) (P := 9) (cfg := releaseCfg) (by decide) (by decide)

/-- C19: without overflow checks `round` truncates towards zero outside the condition, and the
result is always representable. -/
theorem C19_round_wrapped {cfg : Cfg} (hv : Valid cfg L P) (hc : cfg.overflowChecks = false)
    (a : FP L P) (h : value a = minValue L P ∨ rawMax L < 2 * |a.inner.toInt.tmod (10 ^ P)|) :
    ∃ r : FP L P, (FP.round cfg a : Res ε (FP L P)) = .ok r ∧
      value r = (Spec.round (if 0 ≤ value a then .floor else .ceil) (value a) : ℚ) := by
  obtain ⟨i, h1, h2⟩ := C18_integral_wrapped (ε := ε) hv hc a .nearest (h.imp id fun h => ⟨rfl, h⟩)
  have hu := fromDecimal_unwrap (ε := ε) hv i
  rw [h2] at hu
  obtain ⟨r, hr1, hr2⟩ := hu.1 (trunc_representable a)
  refine ⟨r, ?_, hr2⟩
  unfold FP.round; rw [h1, ok_bind]; exact hr1

example := C19_round_wrapped (ε := Unit) (cfg := releaseCfg) (by decide) (by decide)
  (⟨90000000000000000000000000000000000000⟩ : FP .i128 38) (by decide +kernel)

/-- C19 is false for `round` on `FixedPoint<i128, U38>`: `0.9.round()` panics with overflow checks,
although `1` is representable. -/
theorem C19_round_false :
    (FP.round debugCfg (⟨BitVec.ofInt 128 (9 * 10 ^ 37)⟩ : FP .i128 38) : Res Unit _) = .panic ∧
    Representable .i128 38 1 := by
  refine ⟨by decide +kernel, ⟨⟨BitVec.ofInt _ (10 ^ 38)⟩, ?_⟩⟩
  rw [value_eq _ (10 ^ 38) (by decide +kernel)]; norm_num

example : (FP.floor releaseCfg (FP.min : FP .i16 4) : Res Unit _) = .ok ⟨-30000⟩ ∧
    (FP.ceil releaseCfg (FP.min : FP .i16 4) : Res Unit _) = .ok ⟨-30000⟩ ∧
    (FP.round releaseCfg (⟨BitVec.ofInt 128 (9 * 10 ^ 37)⟩ : FP .i128 38) : Res Unit _) = .ok ⟨0⟩ ∧
    rawMax .i128 < 2 * |(BitVec.ofInt 128 (9 * 10 ^ 37)).toInt.tmod (10 ^ 38)| := by
  decide +kernel
example : (FP.floor debugCfg (⟨-1500000000⟩ : FP .i64 9) : Res Unit _) = .ok ⟨-2000000000⟩ ∧
    (FP.ceil debugCfg (⟨-1500000000⟩ : FP .i64 9) : Res Unit _) = .ok ⟨-1000000000⟩ ∧
    (FP.round debugCfg (⟨-1500000000⟩ : FP .i64 9) : Res Unit _) = .ok ⟨-2000000000⟩ ∧
    (FP.ceil debugCfg (FP.max : FP .i64 9) : Res Unit _) = .panic := by decide +kernel
example : value (⟨-1500000000⟩ : FP .i64 9) ≠ minValue .i64 9 := by
  rw [value_eq _ (-1500000000) (by decide +kernel)]
  unfold minValue
  rw [show rawMin .i64 = -9223372036854775808 by decide +kernel]
  norm_num

/-! ## C20 -/

theorem roundTowardsZeroBy_toInt (x p : FP L P) (hp : p.inner.toInt ≠ 0) :
    (FP.roundTowardsZeroBy x p).inner.toInt = x.inner.toInt.tdiv p.inner.toInt * p.inner.toInt := by
  have hw := bits_pos L
  have hb := bits_ge L
  unfold FP.roundTowardsZeroBy SInt.checkedDiv SInt.checked
  rw [if_neg hp]
  by_cases hmin : x.inner.toInt = iMin L.bits ∧ p.inner.toInt = -1
  · have : ¬ Fits L.bits (x.inner.toInt.tdiv p.inner.toInt) := by
      rw [hmin.1, hmin.2, Int.tdiv_neg, Int.tdiv_one]
      have : (0 : Int) < 2 ^ (L.bits - 1) := by positivity
      unfold Fits iMin iMax; omega
    rw [if_neg this, hmin.2, Int.tdiv_neg, Int.tdiv_one]
    show x.inner.toInt = _
    omega
  · have hf := tdiv_fits (by omega) x.inner p.inner hmin
    have hf2 : Fits L.bits (x.inner.toInt.tdiv p.inner.toInt * p.inner.toInt) :=
      tdiv_mul_fits (toInt_fits _)
    rw [if_pos hf, Option.bind_some]
    unfold SInt.checkedMul SInt.checked
    rw [toInt_ofInt_of_fits hw hf, if_pos hf2]
    exact toInt_ofInt_of_fits hw hf2

theorem value_div_value (x p : FP L P) :
    value x / value p = (x.inner.toInt : ℚ) / (p.inner.toInt : ℚ) := by
  unfold value
  rw [div_div_div_cancel_right₀ (ten_pow_ne P)]

/-- C20: the result is `p` times the quotient `x / p` truncated towards zero, as rational numbers. -/
theorem C20_truncated (x p : FP L P) (hp : value p ≠ 0) :
    value (FP.roundTowardsZeroBy x p) =
      ((if 0 ≤ value x / value p then ⌊value x / value p⌋ else ⌈value x / value p⌉ : Int) : ℚ) *
        value p := by
  rw [Ne, value_eq_zero_iff] at hp
  have h := roundTowardsZeroBy_toInt x p hp
  have hq : (if 0 ≤ value x / value p then ⌊value x / value p⌋ else ⌈value x / value p⌉ : Int) =
      x.inner.toInt.tdiv p.inner.toInt := by
    rw [value_div_value]
    have hf := round_div .floor x.inner.toInt hp
    have hc := round_div .ceil x.inner.toInt hp
    simp only [Spec.round] at hf hc
    rw [hf, hc]
    unfold roundDiv
    by_cases hx : x.inner.toInt = 0
    · rw [hx]
      simp
    · have hsg := div_nonneg_sign hx hp
      split <;> rename_i h1
      · rw [if_neg, add_zero]
        rintro ⟨_, h2⟩
        have := hsg.1 h1
        omega
      · rw [if_neg, add_zero]
        rintro ⟨_, h2⟩; exact h1 (hsg.2 h2)
  rw [hq]
  unfold value
  rw [h]; push_cast; ring

example := C20_truncated (⟨-12345⟩ : FP .i64 2) ⟨10⟩ (by decide +kernel)

/-- C20: `x.round_towards_zero_by(p)` is the multiple `k·p` of `p` with `|k·p|` maximal among the
multiples not farther from zero than `x` on the same side.  It is a total function, so it never
panics; no hypothesis on the operands besides `p ≠ 0`. -/
theorem C20_round_towards_zero_by (x p : FP L P) (hp : value p ≠ 0) :
    ∃ k : Int, value (FP.roundTowardsZeroBy x p) = k * value p ∧
      |value (FP.roundTowardsZeroBy x p)| ≤ |value x| ∧
      0 ≤ value (FP.roundTowardsZeroBy x p) * value x ∧
      |value x - value (FP.roundTowardsZeroBy x p)| < |value p| := by
  rw [Ne, value_eq_zero_iff] at hp
  have h := roundTowardsZeroBy_toInt x p hp
  have hpp := ten_pow_pos P
  refine ⟨x.inner.toInt.tdiv p.inner.toInt, ?_, ?_, ?_, ?_⟩
  · unfold value; rw [h]; push_cast; ring
  · unfold value
    rw [h, abs_div, abs_div, abs_of_pos hpp, div_le_div_iff_of_pos_right hpp]
    have := abs_tdiv_le' x.inner.toInt p.inner.toInt
    rw [← abs_mul] at this
    exact_mod_cast this
  · unfold value
    rw [h, div_mul_div_comm]
    apply div_nonneg _ (by positivity)
    have : 0 ≤ x.inner.toInt.tdiv p.inner.toInt * p.inner.toInt * x.inner.toInt := by
      have hb := tdiv_mul_between x.inner.toInt p.inner.toInt
      rcases le_total 0 x.inner.toInt with h0 | h0
      · exact mul_nonneg (by omega) h0
      · exact mul_nonneg_of_nonpos_of_nonpos (by omega) h0
    exact_mod_cast this
  · unfold value
    rw [h, ← sub_div, abs_div, abs_div, abs_of_pos hpp, div_lt_div_iff_of_pos_right hpp]
    have := tmod_abs_lt x.inner.toInt hp
    rw [← loss_eq] at this
    exact_mod_cast this

example := C20_round_towards_zero_by (⟨-12345⟩ : FP .i64 2) ⟨-10⟩ (by decide +kernel)

/-- C20: a zero precision leaves the value unchanged. -/
theorem C20_zero (x p : FP L P) (hp : value p = 0) : FP.roundTowardsZeroBy x p = x := by
  rw [value_eq_zero_iff] at hp
  unfold FP.roundTowardsZeroBy SInt.checkedDiv
  rw [if_pos hp]
  rfl

example := C20_zero (⟨1234⟩ : FP .i64 2) ⟨0⟩ (by decide +kernel)

example : FP.roundTowardsZeroBy (⟨-1234567⟩ : FP .i64 9) ⟨1000⟩ = ⟨-1234000⟩ ∧
    FP.roundTowardsZeroBy (⟨1234567⟩ : FP .i64 9) ⟨-1000⟩ = ⟨1234000⟩ ∧
    FP.roundTowardsZeroBy (FP.min : FP .i64 9) ⟨-1⟩ = FP.min := by decide +kernel
example : value (⟨1000⟩ : FP .i64 9) ≠ 0 := by rw [value_eq _ 1000 (by decide)]; norm_num

end Fixnum
