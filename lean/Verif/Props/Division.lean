import Verif.Props.Rounding

/-!
# Properties C10–C15, C59: rounding division
-/

namespace Fixnum

open Res Spec

variable {L : Layout} {P : Nat} {ε : Type}

/-! ## C10, C11: fixed / fixed -/

theorem rdiv_zero {cfg : Cfg} (a b : FP L P) (mode : RoundMode) (hb : b.inner.toInt = 0) :
    FP.rdiv cfg a b mode = .err .divisionByZero := by
  unfold FP.rdiv
  rw [if_pos hb]

theorem checkedFP_ne_div (z : Int) : checkedFP L P z ≠ .err .divisionByZero := by
  unfold checkedFP
  split <;> simp

theorem arith_no_err {w : Nat} (cfg : Cfg) (z : Int) (e : ε) : SInt.arith cfg w z ≠ .err e := by
  unfold SInt.arith
  split_ifs <;> simp

theorem bind_no_err {α β : Type} {x : Res ε α} {f : α → Res ε β} (hx : ∀ e, x ≠ .err e)
    (hf : ∀ a e, f a ≠ .err e) (e : ε) : (x >>= f) ≠ .err e := by
  cases x with
  | ok t => exact hf t e
  | err e' => exact absurd rfl (hx e')
  | fault k => intro h; cases h

theorem rdivTest_no_err {w : Nat} (cfg : Cfg) (loss sign rhs : BitVec w) (mode : RoundMode)
    (e : ArithErr) : SInt.rdivTest cfg loss sign rhs mode ≠ .err e := by
  unfold SInt.rdivTest
  split_ifs
  · exact bind_no_err (arith_no_err _ _) (fun _ => bind_no_err (arith_no_err _ _)
      (fun _ => bind_no_err (arith_no_err _ _) (fun _ e h => by cases h))) e
  · intro h; cases h

theorem bind_err_of {α β : Type} {x : Res ArithErr α} {f : α → Res ArithErr β} {e : ArithErr}
    (hx : ∀ e, x ≠ .err e) (h : x.bind f = .err e) : ∃ t, x = .ok t ∧ f t = .err e := by
  cases x with
  | ok t => exact ⟨t, rfl, h⟩
  | err e' => exact absurd rfl (hx e')
  | fault k => cases h

theorem div_nonneg_sign {n d : Int} (hn : n ≠ 0) (hd : d ≠ 0) :
    0 ≤ (n : ℚ) / (d : ℚ) ↔ n.sign * d.sign = 1 := by
  rcases lt_or_gt_of_ne hn with h1 | h1 <;> rcases lt_or_gt_of_ne hd with h2 | h2
  · have : 0 ≤ (n : ℚ) / (d : ℚ) := div_nonneg_of_nonpos (by exact_mod_cast h1.le) (by exact_mod_cast h2.le)
    simp [this, Int.sign_eq_neg_one_of_neg h1, Int.sign_eq_neg_one_of_neg h2]
  · have : (n : ℚ) / (d : ℚ) < 0 := div_neg_of_neg_of_pos (by exact_mod_cast h1) (by exact_mod_cast h2)
    simp [not_le.2 this, Int.sign_eq_neg_one_of_neg h1, Int.sign_eq_one_of_pos h2]
  · have : (n : ℚ) / (d : ℚ) < 0 := div_neg_of_pos_of_neg (by exact_mod_cast h1) (by exact_mod_cast h2)
    simp [not_le.2 this, Int.sign_eq_one_of_pos h1, Int.sign_eq_neg_one_of_neg h2]
  · have : 0 ≤ (n : ℚ) / (d : ℚ) := div_nonneg (by exact_mod_cast h1.le) (by exact_mod_cast h2.le)
    simp [this, Int.sign_eq_one_of_pos h1, Int.sign_eq_one_of_pos h2]

/-- C10: `Floor` and `Ceil` quotients: exact rounding, or `Overflow` exactly when the rounded
quotient is not representable. -/
theorem C10_rdiv_directed {cfg : Cfg} (hv : Valid cfg L P) (a b : FP L P) (mode : RoundMode)
    (hm : mode ≠ .nearest) (hb : value b ≠ 0) :
    ExactOr ArithErr.overflow (FP.rdiv cfg a b mode) (roundTo P mode (value a / value b)) := by
  rw [Ne, value_eq_zero_iff] at hb
  rw [rdiv_spec hv a b mode hb fun h => absurd h hm,
    roundTo_div mode _ hb (div_value_scaled a b hb)]
  exact checkedFP_exactOr _

example := C10_rdiv_directed (cfg := debugCfg) (by decide) (⟨100⟩ : FP .i64 1) ⟨-70⟩ .ceil (by decide)
  (by decide +kernel)

/-- C10, C11: `DivisionByZero` is returned exactly for a zero divisor, in every mode. -/
theorem C10_rdiv_zero_iff {cfg : Cfg} (hv : Valid cfg L P) (a b : FP L P) (mode : RoundMode) :
    FP.rdiv cfg a b mode = .err .divisionByZero ↔ value b = 0 := by
  rw [value_eq_zero_iff]
  constructor
  · intro h
    by_contra hb
    by_cases hfq : Fits L.bits ((a.inner.toInt * 10 ^ P).tdiv b.inner.toInt)
    · rw [rdiv_of_test hv a b mode hb hfq] at h
      split at h
      · cases h
      · obtain ⟨t, _, h2⟩ := bind_err_of (rdivTest_no_err _ _ _ _ _) h
        exact checkedFP_ne_div _ h2
    · rw [rdiv_overflow hv a b mode hb hfq] at h
      cases h
  · exact rdiv_zero a b mode

example := C10_rdiv_zero_iff (cfg := debugCfg) (by decide) (⟨100⟩ : FP .i64 1) ⟨0⟩ .ceil

/-- C10, unfolded for `Floor`: the greatest multiple of `10^-P` not above the quotient. -/
theorem C10_rdiv_floor {cfg : Cfg} (hv : Valid cfg L P) (a b r : FP L P) (hb : value b ≠ 0)
    (h : FP.rdiv cfg a b .floor = .ok r) :
    value r ≤ value a / value b ∧
    ∀ n : Int, (n : ℚ) / 10 ^ P ≤ value a / value b → (n : ℚ) / 10 ^ P ≤ value r := by
  have := C10_rdiv_directed hv a b .floor (by simp) hb
  rw [(this.ok_iff r).1 h]
  exact roundTo_floor_spec P _

example := C10_rdiv_floor (cfg := debugCfg) (by decide) (⟨100⟩ : FP .i64 1) ⟨-70⟩ ⟨-15⟩
  (by decide +kernel) (by decide +kernel)

/-- C10, unfolded for `Ceil`. -/
theorem C10_rdiv_ceil {cfg : Cfg} (hv : Valid cfg L P) (a b r : FP L P) (hb : value b ≠ 0)
    (h : FP.rdiv cfg a b .ceil = .ok r) :
    value a / value b ≤ value r ∧
    ∀ n : Int, value a / value b ≤ (n : ℚ) / 10 ^ P → value r ≤ (n : ℚ) / 10 ^ P := by
  have := C10_rdiv_directed hv a b .ceil (by simp) hb
  rw [(this.ok_iff r).1 h]
  exact roundTo_ceil_spec P _

example := C10_rdiv_ceil (cfg := debugCfg) (by decide) (⟨700⟩ : FP .i64 2) ⟨300⟩ ⟨234⟩ (by decide +kernel)
  (by decide +kernel)

example : Valid debugCfg .i64 9 ∧ RoundMode.floor ≠ .nearest := by decide
example : value (⟨7⟩ : FP .i64 9) ≠ 0 := by
  rw [value_eq _ 7 (by decide)]; norm_num
example : FP.rdiv debugCfg (⟨10⟩ : FP .i64 9) ⟨3000000000⟩ .floor = .ok ⟨3⟩ ∧
    FP.rdiv debugCfg (⟨10⟩ : FP .i64 9) ⟨3000000000⟩ .ceil = .ok ⟨4⟩ ∧
    FP.rdiv debugCfg (⟨-10⟩ : FP .i64 9) ⟨3000000000⟩ .floor = .ok ⟨-4⟩ ∧
    FP.rdiv debugCfg (FP.max : FP .i64 9) ⟨1⟩ .floor = .err .overflow := by
  decide +kernel

/-- The exact condition under which the `Nearest` test of `rdiv` computes what it should in every
profile, on raw values: the division is exact, or the truncated quotient is already out of range,
or twice the remainder fits the layout and the divisor is not `MIN`. -/
def NearestSafe (L : Layout) (n d : Int) : Prop :=
  n.tmod d ≠ 0 → rawMin L ≤ n.tdiv d ∧ n.tdiv d ≤ rawMax L →
    2 * |n.tmod d| ≤ rawMax L ∧ d ≠ rawMin L

/-- C11 under the exact condition.  Missing: the operands for which twice the remainder does not
fit the layout (they need `|b| > MAX/2`), for which the claim is false, see below. -/
theorem C11_rdiv_nearest_partial {cfg : Cfg} (hv : Valid cfg L P) (a b : FP L P)
    (hb : value b ≠ 0) (hs : NearestSafe L (a.inner.toInt * 10 ^ P) b.inner.toInt) :
    ExactOr ArithErr.overflow (FP.rdiv cfg a b .nearest)
      (roundTo P .nearest (value a / value b)) := by
  rw [Ne, value_eq_zero_iff] at hb
  rw [rdiv_spec hv a b .nearest hb fun _ h1 h2 => hs h1 ((fits_iff L _).1 h2),
    roundTo_div .nearest _ hb (div_value_scaled a b hb)]
  exact checkedFP_exactOr _

example := C11_rdiv_nearest_partial (cfg := debugCfg) (by decide) (⟨100⟩ : FP .i64 1) ⟨-70⟩
  (by decide +kernel) (by unfold NearestSafe; decide +kernel)

/-- C11 for all divisors whose raw value is at most half of the range: there no further condition
is needed. -/
theorem C11_rdiv_nearest_small_partial {cfg : Cfg} (hv : Valid cfg L P) (a b : FP L P)
    (hb : value b ≠ 0) (hs : 2 * |value b| ≤ maxValue L P) :
    ExactOr ArithErr.overflow (FP.rdiv cfg a b .nearest)
      (roundTo P .nearest (value a / value b)) := by
  apply C11_rdiv_nearest_partial hv a b hb
  rw [Ne, value_eq_zero_iff] at hb
  have hs' : 2 * |b.inner.toInt| ≤ rawMax L := by
    have hp := ten_pow_pos P
    unfold value maxValue at hs
    rw [abs_div, abs_of_pos hp, ← mul_div_assoc, div_le_div_iff_of_pos_right hp] at hs
    exact_mod_cast hs
  intro _ _
  have h1 := tmod_abs_lt (a.inner.toInt * 10 ^ P) hb
  have h2 := half_pos L
  rw [rawMax_half] at *
  refine ⟨by omega, fun h => ?_⟩
  rw [h, rawMin_half, abs_neg, abs_of_pos (by omega)] at hs'
  omega

example := C11_rdiv_nearest_small_partial (cfg := debugCfg) (by decide) (⟨100⟩ : FP .i64 1) ⟨-70⟩
  (by decide +kernel) (by decide +kernel)

/-- C11: the condition is necessary in a build with overflow checks: outside it the call panics. -/
theorem C11_rdiv_nearest_panics_iff {cfg : Cfg} (hv : Valid cfg L P)
    (hc : cfg.overflowChecks = true) (a b : FP L P) (hb : value b ≠ 0) :
    FP.rdiv cfg a b .nearest = .panic ↔
      ¬ NearestSafe L (a.inner.toInt * 10 ^ P) b.inner.toInt := by
  constructor
  · intro h hs
    have := (C11_rdiv_nearest_partial hv a b hb hs).returns
    rw [h] at this
    exact this
  · intro h
    rw [Ne, value_eq_zero_iff] at hb
    unfold NearestSafe at h
    push Not at h
    obtain ⟨h1, h2, h3⟩ := h
    have hfq := (fits_iff L _).2 h2
    have hfl : Fits L.bits ((a.inner.toInt * 10 ^ P).tmod b.inner.toInt) :=
      sub_tdiv_fits (toInt_fits _) hb
    rw [rdiv_of_test hv a b .nearest hb hfq, if_neg h1, rdivTest_panic (bits_pos L) cfg _ _ _ hc]
    · rfl
    · rw [toInt_ofInt_of_fits (bits_pos L) hfl]
      exact fun hh => hh.2 (h3 hh.1)

example := (C11_rdiv_nearest_panics_iff (cfg := debugCfg) (by decide) (by decide)
  (⟨5000000000⟩ : FP .i64 9) ⟨9000000000000000000⟩ (by decide +kernel)).2
  (by unfold NearestSafe; decide +kernel)

/-- C11, what happens without overflow checks outside the condition: the quotient is truncated
instead of rounded, except for the divisor `MIN`, for which it is always rounded away from zero. -/
theorem C11_rdiv_nearest_wrapped {cfg : Cfg} (hv : Valid cfg L P)
    (hc : cfg.overflowChecks = false) (a b : FP L P) (hb : value b ≠ 0)
    (hs : ¬ NearestSafe L (a.inner.toInt * 10 ^ P) b.inner.toInt) :
    ExactOr ArithErr.overflow (FP.rdiv cfg a b .nearest)
      (if value b = minValue L P then
        roundTo P (if 0 ≤ value a / value b then .ceil else .floor) (value a / value b)
      else roundTo P (if 0 ≤ value a / value b then .floor else .ceil) (value a / value b)) := by
  have hq0 := div_value_scaled a b (by rwa [Ne, value_eq_zero_iff] at hb)
  have hbm : value b = minValue L P ↔ b.inner.toInt = rawMin L := by
    unfold value minValue
    rw [div_left_inj' (ten_pow_ne P)]
    exact_mod_cast Iff.rfl
  rw [Ne, value_eq_zero_iff] at hb
  unfold NearestSafe at hs
  push Not at hs
  obtain ⟨h1, h2, h3⟩ := hs
  have hfq := (fits_iff L _).2 h2
  have hfl : Fits L.bits ((a.inner.toInt * 10 ^ P).tmod b.inner.toInt) :=
    sub_tdiv_fits (toInt_fits _) hb
  rw [rdiv_of_test hv a b .nearest hb hfq, if_neg h1,
    rdivTest_wrap (by have := bits_gt L; omega) cfg _ _ _ hc
      (by rw [toInt_ofInt_of_fits (bits_pos L) hfl]; exact tmod_abs_lt _ hb)
      (by rw [toInt_ofInt_of_fits (bits_pos L) hfl]; exact fun hh => hh.2 (h3 hh.1)), bind_ok']
  have hsg : 0 ≤ value a / value b ↔
      (a.inner.toInt * 10 ^ P).sign * b.inner.toInt.sign = 1 := by
    rw [← div_nonneg_sign (by intro h; rw [h, Int.zero_tmod] at h1; exact h1 rfl) hb, ← hq0]
    exact (mul_nonneg_iff_of_pos_right (ten_pow_pos P)).symm
  have hs01 := tmod_eq_zero_sign h1 hb
  generalize a.inner.toInt * 10 ^ P = n at *
  rw [show iMin L.bits = rawMin L from rfl]
  have hcases : ∀ m : RoundMode, ∀ z : Int, roundDiv m n b.inner.toInt = z →
      ExactOr ArithErr.overflow (checkedFP L P z) (roundTo P m (value a / value b)) := by
    intro m z hz
    rw [roundTo_div m _ hb hq0, hz]
    exact checkedFP_exactOr _
  by_cases hm : b.inner.toInt = rawMin L
  · rw [if_pos (hbm.2 hm), decide_eq_true hm, if_pos rfl]
    apply hcases
    unfold roundDiv
    rw [loss_eq]
    split <;> rename_i h0
    · rw [if_pos]
      exact ⟨h1, hsg.1 h0⟩
    · rw [if_pos]
      refine ⟨h1, ?_⟩
      rcases hs01 with h | h
      · exact absurd (hsg.2 h) h0
      · exact h
  · rw [if_neg (fun h => hm (hbm.1 h)), decide_eq_false hm, if_neg (by simp)]
    apply hcases
    unfold roundDiv
    rw [loss_eq]
    split <;> rename_i h0
    · rw [if_neg, add_zero]
      rintro ⟨_, h⟩
      rw [hsg.1 h0] at h; omega
    · rw [if_neg, add_zero]
      rintro ⟨_, h⟩
      exact h0 (hsg.2 h)

example := C11_rdiv_nearest_wrapped (cfg := releaseCfg) (by decide) (by decide)
  (⟨5000000000⟩ : FP .i64 9) ⟨9000000000000000000⟩ (by decide +kernel)
  (by unfold NearestSafe; decide +kernel)

/-- C11 is false: `5.0 / 9000000000.0` on `FixedPoint<i64, U9>`, rounded to nearest, panics in a
build with overflow checks. -/
theorem C11_rdiv_nearest_false :
    ¬ ∀ (cfg : Cfg) (L : Layout) (P : Nat), Valid cfg L P → ∀ a b : FP L P, value b ≠ 0 →
      ExactOr ArithErr.overflow (FP.rdiv cfg a b .nearest)
        (roundTo P .nearest (value a / value b)) := by
  intro h
  have h1 := h debugCfg .i64 9 (by decide) ⟨5000000000⟩ ⟨9000000000000000000⟩
    (by rw [value_eq _ 9000000000000000000 (by decide +kernel)]; norm_num)
  have h2 : FP.rdiv debugCfg (⟨5000000000⟩ : FP .i64 9) ⟨9000000000000000000⟩ .nearest =
    .panic := by decide +kernel
  have h3 := h1.returns
  rw [h2] at h3
  exact h3

/-- C11 is false in release builds too: `5.0 / 9000000000.0 = 0.55…e-9` rounds
to `1e-9`, the code returns `0`. -/
theorem C11_rdiv_nearest_release_false :
    FP.rdiv releaseCfg (⟨5000000000⟩ : FP .i64 9) ⟨9000000000000000000⟩ .nearest = .ok ⟨0⟩ ∧
    roundTo 9 .nearest (value (⟨5000000000⟩ : FP .i64 9) /
      value (⟨9000000000000000000⟩ : FP .i64 9)) = 1 / 10 ^ 9 := by
  refine ⟨by decide +kernel, ?_⟩
  rw [roundTo_div .nearest _ (by decide +kernel) (div_value_scaled _ _ (by decide +kernel))]
  have : roundDiv .nearest ((⟨5000000000⟩ : FP .i64 9).inner.toInt * 10 ^ 9)
    (⟨9000000000000000000⟩ : FP .i64 9).inner.toInt = 1 := by decide +kernel
  rw [this]; norm_num

/-- …and for the divisor `MIN` it rounds away where it should not: `EPSILON / MIN` on
`FixedPoint<i16, U4>` is about `-0.3` units, nearest `0`, returned `-1` unit. -/
theorem C11_rdiv_nearest_min_false :
    FP.rdiv releaseCfg (⟨1⟩ : FP .i16 4) FP.min .nearest = .ok ⟨-1⟩ ∧
    roundTo 4 .nearest (value (⟨1⟩ : FP .i16 4) / value (FP.min : FP .i16 4)) = 0 := by
  refine ⟨by decide +kernel, ?_⟩
  rw [roundTo_div .nearest _ (by decide +kernel) (div_value_scaled _ _ (by decide +kernel))]
  have : roundDiv .nearest ((⟨1⟩ : FP .i16 4).inner.toInt * 10 ^ 4)
    (FP.min : FP .i16 4).inner.toInt = 0 := by decide +kernel
  rw [this]; norm_num

example : NearestSafe .i64 (7 * 10 ^ 9) 3000000000 ∧
    ¬ NearestSafe .i64 (5000000000 * 10 ^ 9) 9000000000000000000 := by
  unfold NearestSafe; decide +kernel
example : 2 * |value (⟨3000000000⟩ : FP .i64 9)| ≤ maxValue .i64 9 := by
  rw [value_eq _ 3000000000 (by decide)]
  unfold maxValue
  rw [show rawMax .i64 = 9223372036854775807 by decide +kernel]
  norm_num
example : FP.rdiv debugCfg (⟨7⟩ : FP .i64 9) ⟨2000000000⟩ .nearest = .ok ⟨4⟩ ∧
    FP.rdiv debugCfg (⟨-7⟩ : FP .i64 9) ⟨2000000000⟩ .nearest = .ok ⟨-4⟩ ∧
    FP.rdiv debugCfg (⟨7⟩ : FP .i64 9) ⟨3000000000⟩ .nearest = .ok ⟨2⟩ := by
  decide +kernel

/-! ## C14: primitive integers -/

theorem intExactOr_of {w : Nat} (hw : 0 < w) {e : ε} {r : Res ε (BitVec w)} {z : Int}
    (h : r = .ok (BitVec.ofInt w z) ∧ Fits w z) : IntExactOr e r z := by
  refine ⟨fun _ => ⟨_, h.1, toInt_ofInt_of_fits hw h.2⟩, fun hn => absurd h.2 ?_⟩
  unfold Fits iMin iMax
  exact hn

/-- C14: `a.rdiv(b, mode)` on a signed primitive of any width (the crate has 8, 16, 32, 64 and 128)
is the exact quotient rounded by `mode`.
Missing: `MIN / -1` and, for `Nearest`, a remainder above `MAX/2` or the divisor `MIN`; the claim
is false there. -/
theorem C14_int_rdiv_partial {w : Nat} (hw : 8 ≤ w) (cfg : Cfg) (a b : BitVec w)
    (mode : RoundMode) (hb : b.toInt ≠ 0)
    (hmin : ¬ (a.toInt = -(2 ^ (w - 1)) ∧ b.toInt = -1))
    (hn : mode = .nearest → a.toInt.tmod b.toInt ≠ 0 →
      2 * |a.toInt.tmod b.toInt| ≤ 2 ^ (w - 1) - 1 ∧ b.toInt ≠ -(2 ^ (w - 1))) :
    IntExactOr ArithErr.overflow (SInt.rdiv cfg a b mode)
      (Spec.round mode ((a.toInt : ℚ) / (b.toInt : ℚ))) := by
  rw [round_div mode _ hb]
  exact intExactOr_of (by omega) (intRdiv_spec (by omega) cfg a b mode hb hmin hn)

example := C14_int_rdiv_partial (by decide) debugCfg (100 : BitVec 8) (-7) .nearest (by decide)
  (by decide) (by decide)

/-- C14: `DivisionByZero` exactly for a zero divisor. -/
theorem C14_int_rdiv_zero_iff {w : Nat} (hw : 8 ≤ w) (cfg : Cfg) (a b : BitVec w)
    (mode : RoundMode) :
    SInt.rdiv cfg a b mode = .err .divisionByZero ↔ b.toInt = 0 := by
  constructor
  · intro h
    by_contra hb
    by_cases hmin : a.toInt = iMin w ∧ b.toInt = -1
    · rw [intRdiv_min cfg a b mode hmin.1 hmin.2] at h; cases h
    by_cases hl : a.toInt.tmod b.toInt = 0
    · rw [intRdiv_exact (by omega) cfg a b mode hb hmin hl] at h; cases h
    rw [intRdiv_of_test (by omega) cfg a b mode hb hmin hl] at h
    obtain ⟨t, _, h2⟩ := bind_err_of (rdivTest_no_err _ _ _ _ _) h
    cases h2
  · exact intRdiv_zero cfg a b mode

example := C14_int_rdiv_zero_iff (by decide) debugCfg (100 : BitVec 8) (-7) .nearest

/-- C14 is false: `MIN.rdiv(-1, _)` panics in every profile and mode, although its result is just
not representable. -/
theorem C14_int_rdiv_min_false {w : Nat} (cfg : Cfg) (a b : BitVec w)
    (mode : RoundMode) (ha : a.toInt = -(2 ^ (w - 1))) (hb : b.toInt = -1) :
    SInt.rdiv cfg a b mode = .panic ∧
    ¬ IntExactOr ArithErr.overflow (SInt.rdiv cfg a b mode)
      (Spec.round mode ((a.toInt : ℚ) / (b.toInt : ℚ))) := by
  have h := intRdiv_min cfg a b mode ha hb
  refine ⟨h, fun hc => ?_⟩
  rw [h] at hc
  by_cases hr : -(2 ^ (w - 1)) ≤ Spec.round mode ((a.toInt : ℚ) / (b.toInt : ℚ)) ∧
      Spec.round mode ((a.toInt : ℚ) / (b.toInt : ℚ)) ≤ 2 ^ (w - 1) - 1
  · obtain ⟨c, h1, _⟩ := hc.1 hr; cases h1
  · cases hc.2 hr

example := C14_int_rdiv_min_false debugCfg (-128 : BitVec 8) (-1) .floor (by decide) (by decide)

/-- C14 is false for `Nearest` even away from `MIN / -1`: `100i8.rdiv(127, Nearest)` panics with
overflow checks and returns `0` instead of `1` without. -/
theorem C14_int_rdiv_false :
    SInt.rdiv debugCfg (100 : BitVec 8) 127 .nearest = .panic ∧
    SInt.rdiv releaseCfg (100 : BitVec 8) 127 .nearest = .ok 0 ∧
    Spec.round .nearest ((100 : ℚ) / 127) = 1 := by
  refine ⟨by decide +kernel, by decide +kernel, ?_⟩
  rw [show ((100 : ℚ) / 127) = ((100 : Int) : ℚ) / ((127 : Int) : ℚ) by norm_num,
    round_div .nearest _ (by norm_num)]
  decide

example : SInt.rdiv debugCfg (-7 : BitVec 64) 2 .floor = .ok (-4) ∧
    SInt.rdiv debugCfg (-7 : BitVec 64) 2 .ceil = .ok (-3) ∧
    SInt.rdiv debugCfg (-7 : BitVec 64) 2 .nearest = .ok (-4) ∧
    SInt.rdiv debugCfg (-7 : BitVec 64) 0 .nearest = .err .divisionByZero := by decide +kernel
example : (7 : BitVec 64).toInt ≠ 0 ∧ 8 ≤ 64 ∧
    ¬ ((100 : BitVec 64).toInt = -(2 ^ (64 - 1)) ∧ (7 : BitVec 64).toInt = -1) ∧
    2 * |(100 : BitVec 64).toInt.tmod (7 : BitVec 64).toInt| ≤ 2 ^ (64 - 1) - 1 := by
  decide +kernel

/-- The exact condition under which the `Nearest` test of the integer `rdiv` computes what it should
in every profile: the division is exact, or twice the remainder fits the type and the divisor is not
`MIN`. -/
def IntNearestSafe (w : Nat) (n d : Int) : Prop :=
  n.tmod d ≠ 0 → 2 * |n.tmod d| ≤ 2 ^ (w - 1) - 1 ∧ d ≠ -(2 ^ (w - 1))

/-- C14: with overflow checks, `rdiv` by a non-zero integer panics exactly for `MIN / -1` and, for
`Nearest`, outside the condition. -/
theorem C14_int_rdiv_panics_iff {w : Nat} (hw : 8 ≤ w) (cfg : Cfg) (hc : cfg.overflowChecks = true)
    (a b : BitVec w) (mode : RoundMode) (hb : b.toInt ≠ 0) :
    SInt.rdiv cfg a b mode = .panic ↔
      (a.toInt = -(2 ^ (w - 1)) ∧ b.toInt = -1) ∨
        (mode = .nearest ∧ ¬ IntNearestSafe w a.toInt b.toInt) := by
  constructor
  · intro h
    by_contra hcon
    rw [not_or] at hcon
    have := C14_int_rdiv_partial hw cfg a b mode hb hcon.1 fun hm => by
      by_contra h2
      exact hcon.2 ⟨hm, h2⟩
    rw [h] at this
    by_cases hr : -(2 ^ (w - 1)) ≤ Spec.round mode ((a.toInt : ℚ) / (b.toInt : ℚ)) ∧
      Spec.round mode ((a.toInt : ℚ) / (b.toInt : ℚ)) ≤ 2 ^ (w - 1) - 1
    · obtain ⟨c, h1, _⟩ := this.1 hr; cases h1
    · cases this.2 hr
  · rintro (⟨h1, h2⟩ | ⟨h1, h2⟩)
    · exact intRdiv_min cfg a b mode h1 h2
    · subst h1
      unfold IntNearestSafe at h2
      push Not at h2
      obtain ⟨h3, h4⟩ := h2
      have hmin : ¬ (a.toInt = iMin w ∧ b.toInt = -1) := by
        rintro ⟨_, h⟩
        rw [h] at h3
        exact h3 (by rw [Int.tmod_neg, Int.tmod_one])
      have hfl : Fits w (a.toInt.tmod b.toInt) := sub_tdiv_fits (toInt_fits _) hb
      rw [intRdiv_of_test (by omega) cfg a b .nearest hb hmin h3,
        rdivTest_panic (by omega) cfg _ _ _ hc]
      · rfl
      · rw [toInt_ofInt_of_fits (by omega) hfl]
        exact fun hh => hh.2 (h4 hh.1)

example := (C14_int_rdiv_panics_iff (by decide) debugCfg (by decide) (80 : BitVec 8) 100 .nearest
  (by decide)).2 (.inr ⟨rfl, by unfold IntNearestSafe; decide⟩)

/-- C14, what happens without overflow checks outside the condition: the quotient is truncated
instead of rounded, except for the divisor `MIN`, for which it is always rounded away from zero. -/
theorem C14_int_rdiv_wrapped {w : Nat} (hw : 8 ≤ w) (cfg : Cfg) (hc : cfg.overflowChecks = false)
    (a b : BitVec w) (hb : b.toInt ≠ 0) (hs : ¬ IntNearestSafe w a.toInt b.toInt) :
    ∃ c, SInt.rdiv cfg a b .nearest = .ok c ∧ c.toInt =
      (if b.toInt = -(2 ^ (w - 1)) then
        Spec.round (if 0 ≤ (a.toInt : ℚ) / b.toInt then .ceil else .floor) ((a.toInt : ℚ) / b.toInt)
      else Spec.round (if 0 ≤ (a.toInt : ℚ) / b.toInt then .floor else .ceil)
        ((a.toInt : ℚ) / b.toInt)) := by
  have hw0 : 0 < w := by omega
  unfold IntNearestSafe at hs
  push Not at hs
  obtain ⟨h3, h4⟩ := hs
  have hmin : ¬ (a.toInt = iMin w ∧ b.toInt = -1) := by
    rintro ⟨_, h⟩
    rw [h] at h3
    exact h3 (by rw [Int.tmod_neg, Int.tmod_one])
  have hfl : Fits w (a.toInt.tmod b.toInt) := sub_tdiv_fits (toInt_fits _) hb
  have fq := tdiv_fits (by omega) a b hmin
  have hsum := tdiv_step_fits (by omega) a b hb h3
  rw [intRdiv_of_test (by omega) cfg a b .nearest hb hmin h3,
    rdivTest_wrap (by omega) cfg _ _ _ hc
      (by rw [toInt_ofInt_of_fits hw0 hfl]; exact tmod_abs_lt _ hb)
      (by rw [toInt_ofInt_of_fits hw0 hfl]; exact fun hh => hh.2 (h4 hh.1)), bind_ok']
  refine ⟨_, rfl, ?_⟩
  have hsg : 0 ≤ (a.toInt : ℚ) / b.toInt ↔ a.toInt.sign * b.toInt.sign = 1 :=
    div_nonneg_sign (by intro h; rw [h, Int.zero_tmod] at h3; exact h3 rfl) hb
  have hs01 := tmod_eq_zero_sign h3 hb
  rw [show iMin w = -(2 ^ (w - 1)) from rfl]
  by_cases hm : b.toInt = -(2 ^ (w - 1))
  · rw [if_pos hm, decide_eq_true hm, if_pos rfl, toInt_ofInt_of_fits hw0 hsum, round_div _ _ hb]
    unfold roundDiv
    rw [loss_eq]
    split <;> rename_i h0
    · rw [if_pos]
      exact ⟨h3, hsg.1 h0⟩
    · rw [if_pos]
      refine ⟨h3, ?_⟩
      rcases hs01 with h | h
      · exact absurd (hsg.2 h) h0
      · exact h
  · rw [if_neg hm, decide_eq_false hm, if_neg (by simp), toInt_ofInt_of_fits hw0 fq,
      round_div _ _ hb]
    unfold roundDiv
    rw [loss_eq]
    split <;> rename_i h0
    · rw [if_neg, add_zero]
      rintro ⟨_, h⟩
      rw [hsg.1 h0] at h; omega
    · rw [if_neg, add_zero]
      rintro ⟨_, h⟩
      exact h0 (hsg.2 h)

example := C14_int_rdiv_wrapped (by decide) releaseCfg rfl (100 : BitVec 8) 127 (by decide)
  (by unfold IntNearestSafe; decide)

example : ¬ IntNearestSafe 8 100 127 ∧ IntNearestSafe 8 100 7 ∧ ¬ IntNearestSafe 8 3 (-128) := by
  unfold IntNearestSafe; decide

/-! ## C12: fixed / integer -/

/-- C12: dividing by a layout integer rounds the exact quotient.
Missing: `MIN / -1` and, for `Nearest`, a remainder above `MAX/2` or the divisor `MIN`; the claim
is false there. -/
theorem C12_rdivInt_partial (cfg : Cfg) (a : FP L P) (n : BitVec L.bits) (mode : RoundMode)
    (hb : n.toInt ≠ 0) (hmin : ¬ (a.inner.toInt = rawMin L ∧ n.toInt = -1))
    (hn : mode = .nearest → a.inner.toInt.tmod n.toInt ≠ 0 →
      2 * |a.inner.toInt.tmod n.toInt| ≤ rawMax L ∧ n.toInt ≠ rawMin L) :
    ExactOr ArithErr.overflow (FP.rdivInt cfg a n mode)
      (roundTo P mode (value a / (n.toInt : ℚ))) := by
  have hw := bits_ge L
  obtain ⟨h1, h2⟩ := intRdiv_spec (by omega) cfg a.inner n mode hb hmin hn
  rw [roundTo_div mode _ hb (n := a.inner.toInt) (d := n.toInt)
    (by have := ten_pow_ne P; unfold value; field_simp)]
  unfold FP.rdivInt
  rw [h1]
  have := checkedFP_exactOr (L := L) (P := P) (roundDiv mode a.inner.toInt n.toInt)
  unfold checkedFP at this
  rwa [if_pos h2] at this

example := C12_rdivInt_partial debugCfg (⟨100⟩ : FP .i64 1) (-7) .nearest (by decide) (by decide)
  (by decide +kernel)

/-- C12: for divisors at most half of the range only `MIN / -1` is excluded. -/
theorem C12_rdivInt_small_partial (cfg : Cfg) (a : FP L P) (n : BitVec L.bits) (mode : RoundMode)
    (hb : n.toInt ≠ 0) (hmin : ¬ (a.inner.toInt = rawMin L ∧ n.toInt = -1))
    (hs : 2 * |n.toInt| ≤ rawMax L) :
    ExactOr ArithErr.overflow (FP.rdivInt cfg a n mode)
      (roundTo P mode (value a / (n.toInt : ℚ))) := by
  apply C12_rdivInt_partial cfg a n mode hb hmin
  intro _ _
  have h1 := tmod_abs_lt a.inner.toInt hb
  have h2 := half_pos L
  rw [rawMax_half] at *
  refine ⟨by omega, fun h => ?_⟩
  rw [h, rawMin_half, abs_neg, abs_of_pos (by omega)] at hs
  omega

example := C12_rdivInt_small_partial debugCfg (⟨100⟩ : FP .i64 1) (-7) .nearest (by decide) (by decide)
  (by decide +kernel)

/-- C12: `DivisionByZero` exactly for a zero divisor. -/
theorem C12_rdivInt_zero_iff (cfg : Cfg) (a : FP L P) (n : BitVec L.bits) (mode : RoundMode) :
    FP.rdivInt cfg a n mode = .err .divisionByZero ↔ n.toInt = 0 := by
  have hw := bits_ge L
  rw [← C14_int_rdiv_zero_iff (by omega) cfg a.inner n mode]
  unfold FP.rdivInt
  cases SInt.rdiv cfg a.inner n mode <;> simp [mapOk]

example : FP.rdivInt debugCfg (⟨15⟩ : FP .i64 1) 0 .nearest = .err .divisionByZero ∧
    FP.rdivInt debugCfg (⟨15⟩ : FP .i64 1) (-4) .nearest = .ok ⟨-4⟩ := by decide +kernel

/-- C12 is false: `MIN.rdiv(-1, _)` panics in every profile and mode. -/
theorem C12_rdivInt_min_false (cfg : Cfg) (mode : RoundMode) :
    FP.rdivInt cfg (FP.min : FP L P) (BitVec.ofInt _ (-1)) mode = .panic := by
  have hw := bits_ge L
  unfold FP.rdivInt
  rw [intRdiv_min cfg _ _ mode (min_toInt L P) (toInt_ofInt_of_fits (by omega) ?_)]
  · rfl
  · exact unit_fits (by omega) (by simp)

/-- C12: with overflow checks, dividing by a non-zero integer panics exactly for `MIN / -1` and, for
`Nearest`, outside the condition. -/
theorem C12_rdivInt_panics_iff (cfg : Cfg) (hc : cfg.overflowChecks = true) (a : FP L P)
    (n : BitVec L.bits) (mode : RoundMode) (hb : n.toInt ≠ 0) :
    FP.rdivInt cfg a n mode = .panic ↔
      (a.inner.toInt = rawMin L ∧ n.toInt = -1) ∨
        (mode = .nearest ∧ ¬ IntNearestSafe L.bits a.inner.toInt n.toInt) := by
  have hw := bits_ge L
  have := C14_int_rdiv_panics_iff (by omega) cfg hc a.inner n mode hb
  rw [show rawMin L = -(2 ^ (L.bits - 1)) from rfl, ← this]
  unfold FP.rdivInt
  cases SInt.rdiv cfg a.inner n mode <;> simp [mapOk, Res.panic]

example := (C12_rdivInt_panics_iff debugCfg (by decide) (⟨20000⟩ : FP .i16 1) 32000 .nearest
  (by decide)).2 (.inr ⟨rfl, by unfold IntNearestSafe; decide +kernel⟩)

/-- C12, what happens without overflow checks outside the condition. -/
theorem C12_rdivInt_wrapped (cfg : Cfg) (hc : cfg.overflowChecks = false) (a : FP L P)
    (n : BitVec L.bits) (hb : n.toInt ≠ 0)
    (hs : ¬ IntNearestSafe L.bits a.inner.toInt n.toInt) :
    ∃ r, FP.rdivInt cfg a n .nearest = .ok r ∧ value r =
      (if n.toInt = rawMin L then
        roundTo P (if 0 ≤ value a / n.toInt then .ceil else .floor) (value a / n.toInt)
      else roundTo P (if 0 ≤ value a / n.toInt then .floor else .ceil) (value a / n.toInt)) := by
  have hw := bits_ge L
  have hp := ten_pow_pos P
  obtain ⟨c, h1, h2⟩ := C14_int_rdiv_wrapped (by omega) cfg hc a.inner n hb hs
  refine ⟨⟨c⟩, ?_, ?_⟩
  · unfold FP.rdivInt; rw [h1]; rfl
  · have e : value a / n.toInt * 10 ^ P = (a.inner.toInt : ℚ) / n.toInt := by
      unfold value; field_simp
    have hsg : 0 ≤ value a / n.toInt ↔ 0 ≤ (a.inner.toInt : ℚ) / n.toInt := by
      rw [← e]; exact (mul_nonneg_iff_of_pos_right hp).symm
    unfold roundTo
    rw [e, ← show rawMin L = -(2 ^ (L.bits - 1)) from rfl] at *
    simp only [hsg]
    unfold value
    rw [h2]
    split <;> rfl

example := C12_rdivInt_wrapped releaseCfg (by decide) (⟨20000⟩ : FP .i16 1) 32000 (by decide)
  (by unfold IntNearestSafe; decide +kernel)

/-- C12 is false for `Nearest` with a large remainder: panic or a wrong result. -/
theorem C12_rdivInt_false :
    FP.rdivInt debugCfg (⟨20000⟩ : FP .i16 2) 30000 .nearest = .panic ∧
    FP.rdivInt releaseCfg (⟨20000⟩ : FP .i16 2) 30000 .nearest = .ok ⟨0⟩ ∧
    roundTo 2 .nearest (value (⟨20000⟩ : FP .i16 2) / 30000) = 1 / 100 := by
  refine ⟨by decide +kernel, by decide +kernel, ?_⟩
  rw [roundTo_div .nearest _ (n := 20000) (d := 30000) (by norm_num)
    (by rw [value_eq _ 20000 (by decide)]; norm_num)]
  have : roundDiv .nearest 20000 30000 = 1 := by decide
  rw [this]; norm_num

example : FP.rdivInt debugCfg (⟨-7⟩ : FP .i64 9) 2 .floor = .ok ⟨-4⟩ ∧
    FP.rdivInt debugCfg (⟨-7⟩ : FP .i64 9) 2 .nearest = .ok ⟨-4⟩ ∧
    FP.rdivInt debugCfg (⟨-7⟩ : FP .i64 9) 0 .ceil = .err .divisionByZero := by decide +kernel
example : (2 : BitVec 64).toInt ≠ 0 ∧ ¬ ((-7 : BitVec 64).toInt = rawMin .i64 ∧
    (2 : BitVec 64).toInt = -1) ∧ 2 * |(2 : BitVec 64).toInt| ≤ rawMax .i64 := by decide +kernel

/-! ## C27: conversion from integers -/

theorem tryFromInt_spec {cfg : Cfg} (hv : Valid cfg L P) (n : Int) :
    (FP.tryFromInt cfg n : Res ConvErr (FP L P)) =
      if Fits L.bits (n * 10 ^ P) then .ok ⟨BitVec.ofInt _ (n * 10 ^ P)⟩
      else .err ⟨"too big number"⟩ := by
  have hw := bits_pos L
  have hc := coef_toInt hv
  have hp : (1 : Int) ≤ 10 ^ P := one_le_pow₀ (by norm_num)
  unfold FP.tryFromInt SInt.tryFrom SInt.checked
  by_cases h : Fits L.bits n
  · rw [if_pos h, ofOption_some, ok_bind, coef_spec hv, ok_bind]
    unfold SInt.checkedMul SInt.checked
    rw [hc, toInt_ofInt_of_fits hw h]
    by_cases h2 : Fits L.bits (n * 10 ^ P)
    · rw [if_pos h2, if_pos h2, ofOption_some, ok_bind]; rfl
    · rw [if_neg h2, if_neg h2, ofOption_none, err_bind]
  · rw [if_neg h, ofOption_none, err_bind, if_neg]
    intro h2
    apply h
    have h3 : |n| ≤ |n * 10 ^ P| := by
      rw [abs_mul, abs_of_pos (show (0:Int) < 10 ^ P by omega)]
      exact le_mul_of_one_le_right (abs_nonneg n) hp
    have h4 : 0 ≤ n → 0 ≤ n * 10 ^ P := fun h => mul_nonneg h (by omega)
    have h5 : n ≤ 0 → n * 10 ^ P ≤ 0 := fun h => mul_nonpos_of_nonpos_of_nonneg h (by omega)
    have h6 : (0 : Int) < 2 ^ (L.bits - 1) := by positivity
    unfold Fits iMin iMax at *
    generalize n * 10 ^ P = m at *
    rcases le_total 0 n with h7 | h7
    · rw [abs_of_nonneg h7, abs_of_nonneg (h4 h7)] at h3; omega
    · rw [abs_of_nonpos h7, abs_of_nonpos (h5 h7)] at h3; omega

theorem representable_int (n : Int) : Representable L P (n : ℚ) ↔ Fits L.bits (n * 10 ^ P) := by
  rw [← representable_iff (P := P)]
  have := ten_pow_ne P
  push_cast
  rw [mul_div_cancel_right₀ _ this]

/-- C27: conversion of an integer is exact, or the error "too big number" exactly when the integer
is not representable. `n` is the mathematical value of the source integer, of whichever type. -/
theorem C27_try_from_int {cfg : Cfg} (hv : Valid cfg L P) (n : Int) :
    ExactOr (ConvErr.mk "too big number") (FP.tryFromInt cfg n : Res ConvErr (FP L P)) (n : ℚ) := by
  rw [tryFromInt_spec hv]
  constructor
  · intro h
    rw [if_pos ((representable_int n).1 h)]
    refine ⟨_, rfl, ?_⟩
    rw [value_ofInt ((representable_int n).1 h)]
    push_cast
    rw [mul_div_cancel_right₀ _ (ten_pow_ne P)]
  · intro h
    rw [if_neg (fun hf => h ((representable_int n).2 hf))]

example := C27_try_from_int (L := .i64) (P := 9) (cfg := debugCfg) (by decide) 9223372036

/-- C27: an integer is accepted exactly if it lies between the smallest and the largest value. -/
theorem C27_try_from_int_range {cfg : Cfg} (hv : Valid cfg L P) (n : Int) :
    (∃ x, (FP.tryFromInt cfg n : Res ConvErr (FP L P)) = .ok x ∧ value x = n) ↔
      minValue L P ≤ n ∧ (n : ℚ) ≤ maxValue L P := by
  have hp := ten_pow_pos P
  have h1 : (minValue L P ≤ n ∧ (n : ℚ) ≤ maxValue L P) ↔ Fits L.bits (n * 10 ^ P) := by
    unfold minValue maxValue
    rw [div_le_iff₀ hp, le_div_iff₀ hp, fits_iff]
    exact_mod_cast Iff.rfl
  rw [h1, ← representable_int (P := P)]
  constructor
  · rintro ⟨x, -, h⟩; exact ⟨x, h⟩
  · exact (C27_try_from_int hv n).1

example : Valid debugCfg .i16 2 := by decide
example : (FP.tryFromInt debugCfg 327 : Res ConvErr (FP .i16 2)) = .ok ⟨32700⟩ ∧
    (FP.tryFromInt debugCfg (-327) : Res ConvErr (FP .i16 2)) = .ok ⟨-32700⟩ ∧
    (FP.tryFromInt debugCfg 328 : Res ConvErr (FP .i16 2)) = .err ⟨"too big number"⟩ ∧
    (FP.tryFromInt debugCfg 65537 : Res ConvErr (FP .i16 2)) = .err ⟨"too big number"⟩ := by
  decide +kernel

/-! ## C13: integer / fixed -/

/-- C13: an integer that is not representable gives `Overflow`, whatever the divisor. -/
theorem C13_intRdiv_overflow {cfg : Cfg} (hv : Valid cfg L P) (n : BitVec L.bits) (x : FP L P)
    (mode : RoundMode) (hn : ¬ Representable L P (n.toInt : ℚ)) :
    FP.intRdiv cfg n x mode = .err .overflow := by
  unfold FP.intRdiv
  rw [(C27_try_from_int hv n.toInt).2 hn]
  rfl

example := C13_intRdiv_overflow (cfg := debugCfg) (by decide) 9223372037 (⟨100⟩ : FP .i64 9) .floor
  (fun ⟨c, hc⟩ => by
    have h := (C52_bounds c).2
    rw [hc] at h
    exact absurd h (by decide +kernel))

theorem intRdiv_eq {cfg : Cfg} (hv : Valid cfg L P) (n : BitVec L.bits) (x : FP L P)
    (mode : RoundMode) (hn : Representable L P (n.toInt : ℚ)) :
    ∃ l : FP L P, value l = n.toInt ∧ l.inner.toInt = n.toInt * 10 ^ P ∧
      FP.intRdiv cfg n x mode = FP.rdiv cfg l x mode := by
  obtain ⟨l, h1, h2⟩ := (C27_try_from_int hv n.toInt).1 hn
  refine ⟨l, h2, ?_, ?_⟩
  · unfold value at h2
    rw [div_eq_iff (ten_pow_ne P)] at h2
    exact_mod_cast h2
  · unfold FP.intRdiv
    rw [h1]
    rfl

/-- C13: a representable integer divided by zero gives `DivisionByZero`. -/
theorem C13_intRdiv_zero {cfg : Cfg} (hv : Valid cfg L P) (n : BitVec L.bits) (x : FP L P)
    (mode : RoundMode) (hn : Representable L P (n.toInt : ℚ)) (hx : value x = 0) :
    FP.intRdiv cfg n x mode = .err .divisionByZero := by
  obtain ⟨l, _, _, h⟩ := intRdiv_eq hv n x mode hn
  rw [h]
  exact rdiv_zero _ _ _ ((value_eq_zero_iff x).1 hx)

example := C13_intRdiv_zero (cfg := debugCfg) (by decide) 9223372036 (⟨0⟩ : FP .i64 9) .floor
  ⟨⟨9223372036000000000⟩, by decide +kernel⟩ (by decide +kernel)

/-- C13: a representable integer divided by a non-zero value, `Floor` and `Ceil`. -/
theorem C13_intRdiv_directed {cfg : Cfg} (hv : Valid cfg L P) (n : BitVec L.bits) (x : FP L P)
    (mode : RoundMode) (hm : mode ≠ .nearest) (hn : Representable L P (n.toInt : ℚ))
    (hx : value x ≠ 0) :
    ExactOr ArithErr.overflow (FP.intRdiv cfg n x mode) (roundTo P mode (n.toInt / value x)) := by
  obtain ⟨l, h1, _, h⟩ := intRdiv_eq hv n x mode hn
  rw [h, ← h1]
  exact C10_rdiv_directed hv l x mode hm hx

example := C13_intRdiv_directed (cfg := debugCfg) (by decide) 100 (⟨7000000000⟩ : FP .i64 9) .floor
  (by decide) ⟨⟨100000000000⟩, by decide +kernel⟩ (by decide +kernel)

/-- C13 for `Nearest`, under the condition of C11.  Missing: remainders above `MAX/2` and the
divisor `MIN`. -/
theorem C13_intRdiv_nearest_partial {cfg : Cfg} (hv : Valid cfg L P) (n : BitVec L.bits)
    (x : FP L P) (hn : Representable L P (n.toInt : ℚ)) (hx : value x ≠ 0)
    (hs : NearestSafe L (n.toInt * 10 ^ P * 10 ^ P) x.inner.toInt) :
    ExactOr ArithErr.overflow (FP.intRdiv cfg n x .nearest)
      (roundTo P .nearest (n.toInt / value x)) := by
  obtain ⟨l, h1, h2, h⟩ := intRdiv_eq hv n x .nearest hn
  rw [h, ← h1]
  exact C11_rdiv_nearest_partial hv l x hx (by rwa [h2])

example := C13_intRdiv_nearest_partial (cfg := debugCfg) (by decide) 100 (⟨7000000000⟩ : FP .i64 9)
  ⟨⟨100000000000⟩, by decide +kernel⟩ (by decide +kernel) (by unfold NearestSafe; decide +kernel)

/-- C13: with overflow checks `Nearest` panics exactly outside the condition. -/
theorem C13_intRdiv_nearest_panics_iff {cfg : Cfg} (hv : Valid cfg L P)
    (hc : cfg.overflowChecks = true) (n : BitVec L.bits) (x : FP L P)
    (hn : Representable L P (n.toInt : ℚ)) (hx : value x ≠ 0) :
    FP.intRdiv cfg n x .nearest = .panic ↔
      ¬ NearestSafe L (n.toInt * 10 ^ P * 10 ^ P) x.inner.toInt := by
  obtain ⟨l, _, h2, h⟩ := intRdiv_eq hv n x .nearest hn
  rw [h, C11_rdiv_nearest_panics_iff hv hc l x hx, h2]

example := (C13_intRdiv_nearest_panics_iff (cfg := debugCfg) (by decide) (by decide) 5
  (⟨9000000000000000000⟩ : FP .i64 9) ⟨⟨5000000000⟩, by decide +kernel⟩ (by decide +kernel)).2
  (by unfold NearestSafe; decide +kernel)

/-- C13, `Nearest` without overflow checks outside the condition: as `C11_rdiv_nearest_wrapped`. -/
theorem C13_intRdiv_nearest_wrapped {cfg : Cfg} (hv : Valid cfg L P)
    (hc : cfg.overflowChecks = false) (n : BitVec L.bits) (x : FP L P)
    (hn : Representable L P (n.toInt : ℚ)) (hx : value x ≠ 0)
    (hs : ¬ NearestSafe L (n.toInt * 10 ^ P * 10 ^ P) x.inner.toInt) :
    ExactOr ArithErr.overflow (FP.intRdiv cfg n x .nearest)
      (if value x = minValue L P then
        roundTo P (if 0 ≤ n.toInt / value x then .ceil else .floor) (n.toInt / value x)
      else roundTo P (if 0 ≤ n.toInt / value x then .floor else .ceil) (n.toInt / value x)) := by
  obtain ⟨l, h1, h2, h⟩ := intRdiv_eq hv n x .nearest hn
  rw [h, ← h1]
  exact C11_rdiv_nearest_wrapped hv hc l x hx (by rwa [h2])

example := C13_intRdiv_nearest_wrapped (cfg := releaseCfg) (by decide) (by decide) 5
  (⟨9000000000000000000⟩ : FP .i64 9) ⟨⟨5000000000⟩, by decide +kernel⟩ (by decide +kernel)
  (by unfold NearestSafe; decide +kernel)

/-- C13 is false for `Nearest` in general (same overflow as C11): `5.rdiv(9000000000.0)`. -/
theorem C13_intRdiv_nearest_false :
    FP.intRdiv debugCfg (L := .i64) (P := 9) 5 ⟨9000000000000000000⟩ .nearest = .panic ∧
    FP.intRdiv releaseCfg (L := .i64) (P := 9) 5 ⟨9000000000000000000⟩ .nearest = .ok ⟨0⟩ ∧
    roundTo 9 .nearest ((5 : ℚ) / value (⟨9000000000000000000⟩ : FP .i64 9)) = 1 / 10 ^ 9 := by
  refine ⟨by decide +kernel, by decide +kernel, ?_⟩
  rw [roundTo_div .nearest _ (n := 5) (d := 9) (by norm_num)
    (by rw [value_eq _ 9000000000000000000 (by decide +kernel)]; norm_num)]
  have : roundDiv .nearest 5 9 = 1 := by decide
  rw [this]; norm_num

example : Representable .i64 9 (((7 : BitVec 64).toInt : Int) : ℚ) := by
  rw [representable_int]; decide +kernel
example : ¬ Representable .i64 9 (((BitVec.ofInt 64 (10 ^ 10)).toInt : Int) : ℚ) := by
  rw [representable_int]; decide +kernel
example : FP.intRdiv debugCfg (L := .i64) (P := 9) 7 ⟨3000000000⟩ .floor = .ok ⟨2333333333⟩ ∧
    FP.intRdiv debugCfg (L := .i64) (P := 9) 7 ⟨3000000000⟩ .ceil = .ok ⟨2333333334⟩ ∧
    FP.intRdiv debugCfg (L := .i64) (P := 9) 7 ⟨3000000000⟩ .nearest = .ok ⟨2333333333⟩ ∧
    FP.intRdiv debugCfg (L := .i64) (P := 9) 7 ⟨0⟩ .nearest = .err .divisionByZero ∧
    FP.intRdiv debugCfg (L := .i64) (P := 9) 10000000000 ⟨0⟩ .nearest = .err .overflow := by
  decide +kernel
example : NearestSafe .i64 (7 * 10 ^ 9 * 10 ^ 9) 3000000000 := by
  unfold NearestSafe; decide +kernel

/-! ## C15: reciprocal -/

theorem recip_eq {cfg : Cfg} (hv : Valid cfg L P) (x : FP L P) (mode : RoundMode) :
    ∃ o : FP L P, FP.one cfg = (.ok o : Res ArithErr (FP L P)) ∧ value o = 1 ∧
      o.inner.toInt = 10 ^ P ∧ FP.recip cfg x mode = FP.rdiv cfg o x mode := by
  obtain ⟨o, h1, h2⟩ := C52_one (ε := ArithErr) hv
  refine ⟨o, h1, h2, ?_, ?_⟩
  · unfold value at h2
    rw [div_eq_iff (ten_pow_ne P), one_mul] at h2
    exact_mod_cast h2
  · unfold FP.recip
    rw [h1, ok_bind]

/-- C15: `x.recip(mode)` is `ONE.rdiv(x, mode)`. -/
theorem C15_recip_is_rdiv {cfg : Cfg} (hv : Valid cfg L P) (x : FP L P) (mode : RoundMode) :
    ∃ o : FP L P, value o = 1 ∧ FP.recip cfg x mode = FP.rdiv cfg o x mode := by
  obtain ⟨o, _, h2, _, h⟩ := recip_eq hv x mode
  exact ⟨o, h2, h⟩

example := C15_recip_is_rdiv (cfg := debugCfg) (by decide) (⟨7000000000⟩ : FP .i64 9) .nearest

/-- C15: `DivisionByZero` exactly for zero. -/
theorem C15_recip_zero_iff {cfg : Cfg} (hv : Valid cfg L P) (x : FP L P) (mode : RoundMode) :
    FP.recip cfg x mode = .err .divisionByZero ↔ value x = 0 := by
  obtain ⟨o, _, _, _, h⟩ := recip_eq hv x mode
  rw [h, C10_rdiv_zero_iff hv]

example := C15_recip_zero_iff (cfg := debugCfg) (by decide) (⟨0⟩ : FP .i64 9) .nearest

/-- C15 for `Floor` and `Ceil`. -/
theorem C15_recip_directed {cfg : Cfg} (hv : Valid cfg L P) (x : FP L P) (mode : RoundMode)
    (hm : mode ≠ .nearest) (hx : value x ≠ 0) :
    ExactOr ArithErr.overflow (FP.recip cfg x mode) (roundTo P mode (1 / value x)) := by
  obtain ⟨o, _, h2, _, h⟩ := recip_eq hv x mode
  rw [h, ← h2]
  exact C10_rdiv_directed hv o x mode hm hx

example := C15_recip_directed (cfg := debugCfg) (by decide) (⟨-7000000000⟩ : FP .i64 9) .floor
  (by decide) (by decide +kernel)

/-- C15 for `Nearest`, under the condition of C11.  Missing: remainders above `MAX/2` and the
divisor `MIN`. -/
theorem C15_recip_nearest_partial {cfg : Cfg} (hv : Valid cfg L P) (x : FP L P) (hx : value x ≠ 0)
    (hs : NearestSafe L (10 ^ P * 10 ^ P) x.inner.toInt) :
    ExactOr ArithErr.overflow (FP.recip cfg x .nearest) (roundTo P .nearest (1 / value x)) := by
  obtain ⟨o, _, h2, h3, h⟩ := recip_eq hv x .nearest
  rw [h, ← h2]
  exact C11_rdiv_nearest_partial hv o x hx (by rwa [h3])

example := C15_recip_nearest_partial (cfg := debugCfg) (by decide) (⟨-7000000000⟩ : FP .i64 9)
  (by decide +kernel) (by unfold NearestSafe; decide +kernel)

/-- C15: with overflow checks `Nearest` panics exactly outside the condition. -/
theorem C15_recip_nearest_panics_iff {cfg : Cfg} (hv : Valid cfg L P)
    (hc : cfg.overflowChecks = true) (x : FP L P) (hx : value x ≠ 0) :
    FP.recip cfg x .nearest = .panic ↔ ¬ NearestSafe L (10 ^ P * 10 ^ P) x.inner.toInt := by
  obtain ⟨o, _, _, h3, h⟩ := recip_eq hv x .nearest
  rw [h, C11_rdiv_nearest_panics_iff hv hc o x hx, h3]

example := (C15_recip_nearest_panics_iff (cfg := debugCfg) (by decide) (by decide)
  (⟨32767⟩ : FP .i16 4) (by decide +kernel)).2
  (by unfold NearestSafe; decide +kernel)

/-- C15, `Nearest` without overflow checks outside the condition: as `C11_rdiv_nearest_wrapped`. -/
theorem C15_recip_nearest_wrapped {cfg : Cfg} (hv : Valid cfg L P)
    (hc : cfg.overflowChecks = false) (x : FP L P) (hx : value x ≠ 0)
    (hs : ¬ NearestSafe L (10 ^ P * 10 ^ P) x.inner.toInt) :
    ExactOr ArithErr.overflow (FP.recip cfg x .nearest)
      (if value x = minValue L P then
        roundTo P (if 0 ≤ 1 / value x then .ceil else .floor) (1 / value x)
      else roundTo P (if 0 ≤ 1 / value x then .floor else .ceil) (1 / value x)) := by
  obtain ⟨o, _, h2, h3, h⟩ := recip_eq hv x .nearest
  rw [h, ← h2]
  exact C11_rdiv_nearest_wrapped hv hc o x hx (by rwa [h3])

example := C15_recip_nearest_wrapped (cfg := releaseCfg) (by decide) (by decide)
  (⟨32767⟩ : FP .i16 4) (by decide +kernel) (by unfold NearestSafe; decide +kernel)

/-- C15 is false for `Nearest` in general: `2.7.recip(Nearest)` on `FixedPoint<i16, U4>` panics
(the remainder is 19000 units, twice that does not fit `i16`). -/
theorem C15_recip_nearest_false :
    ¬ ∀ (cfg : Cfg) (L : Layout) (P : Nat), Valid cfg L P → ∀ x : FP L P, value x ≠ 0 →
      ExactOr ArithErr.overflow (FP.recip cfg x .nearest) (roundTo P .nearest (1 / value x)) := by
  intro h
  have h1 := h debugCfg .i16 4 (by decide) ⟨27000⟩
    (by rw [value_eq _ 27000 (by decide +kernel)]; norm_num)
  have h2 : FP.recip debugCfg (⟨27000⟩ : FP .i16 4) .nearest = .panic := by decide +kernel
  have h3 := h1.returns
  rw [h2] at h3
  exact h3

example : ¬ NearestSafe .i16 (10 ^ 4 * 10 ^ 4) 27000 ∧
    FP.recip releaseCfg (⟨27000⟩ : FP .i16 4) .nearest = .ok ⟨3703⟩ ∧
    ¬ NearestSafe .i64 (5 * 10 ^ 9 * 10 ^ 9) 9000000000000000000 := by
  unfold NearestSafe; decide +kernel
example : NearestSafe .i64 (10 ^ 9 * 10 ^ 9) 3000000000 := by unfold NearestSafe; decide +kernel
example : FP.recip debugCfg (⟨3000000000⟩ : FP .i64 9) .floor = .ok ⟨333333333⟩ ∧
    FP.recip debugCfg (⟨-3000000000⟩ : FP .i64 9) .floor = .ok ⟨-333333334⟩ ∧
    FP.recip debugCfg (⟨3000000000⟩ : FP .i64 9) .nearest = .ok ⟨333333333⟩ ∧
    FP.recip debugCfg (⟨0⟩ : FP .i64 9) .nearest = .err .divisionByZero ∧
    FP.recip debugCfg (⟨1⟩ : FP .i32 9) .floor = .err .overflow := by decide +kernel

/-! ## C59: identities -/

theorem ExactOr.ok_of_value {e : ε} {r : Res ε (FP L P)} {x : FP L P}
    (h : ExactOr e r (value x)) : r = .ok x := by
  obtain ⟨c, h1, h2⟩ := h.1 ⟨x, rfl⟩
  rw [h1, value_inj h2]

/-- C59: multiplication by one, from both sides, in every mode and on every type. -/
theorem C59_rmul_one {cfg : Cfg} (hv : Valid cfg L P) (x o : FP L P) (mode : RoundMode)
    (ho : FP.one cfg = (.ok o : Res ArithErr (FP L P))) :
    FP.rmul cfg x o mode = .ok x ∧ FP.rmul cfg o x mode = .ok x := by
  obtain ⟨o', h1, h2, h3, _⟩ := recip_eq hv x mode
  have : o' = o := by rw [ho] at h1; cases h1; rfl
  subst this
  have : FP.rmul cfg x o' mode = .ok x := by
    have := C07_rmul_remainder_partial hv x o' mode (fun _ _ => by
      rw [h3, Int.mul_tmod_left]
      have := half_pos L; rw [rawMax_half, rawMin_half]; omega)
    rw [h2, mul_one, roundTo_value] at this
    exact ExactOr.ok_of_value this
  exact ⟨this, by rw [C08_rmul_comm, this]⟩

example := C59_rmul_one (cfg := debugCfg) (by decide) (⟨-12⟩ : FP .i64 9) ⟨1000000000⟩ .nearest
  (by decide +kernel)

/-- C59: multiplication by zero. -/
theorem C59_rmul_zero {cfg : Cfg} (hv : Valid cfg L P) (x : FP L P) (mode : RoundMode) :
    FP.rmul cfg x FP.zero mode = .ok FP.zero ∧ FP.rmul cfg FP.zero x mode = .ok FP.zero := by
  have h0 : (FP.zero : FP L P).inner.toInt = 0 := (value_eq_zero_iff _).1 C52_zero
  have : FP.rmul cfg x FP.zero mode = .ok FP.zero := by
    have := C07_rmul_remainder_partial hv x FP.zero mode (fun _ _ => by
      rw [h0, mul_zero, Int.zero_tmod]
      have := half_pos L; rw [rawMax_half, rawMin_half]; omega)
    rw [C52_zero, mul_zero, ← C52_zero (L := L) (P := P), roundTo_value] at this
    exact ExactOr.ok_of_value this
  exact ⟨this, by rw [C08_rmul_comm, this]⟩

example := C59_rmul_zero (cfg := debugCfg) (by decide) (FP.min : FP .i64 9) .nearest

theorem rdiv_exact {cfg : Cfg} (hv : Valid cfg L P) (a b c : FP L P) (mode : RoundMode)
    (hb : value b ≠ 0) (hr : (a.inner.toInt * 10 ^ P).tmod b.inner.toInt = 0)
    (h : value a / value b = value c) : FP.rdiv cfg a b mode = .ok c := by
  have : ExactOr ArithErr.overflow (FP.rdiv cfg a b mode)
      (roundTo P mode (value a / value b)) := by
    cases mode with
    | nearest => exact C11_rdiv_nearest_partial hv a b hb fun h => absurd hr h
    | floor => exact C10_rdiv_directed hv a b _ (by simp) hb
    | ceil => exact C10_rdiv_directed hv a b _ (by simp) hb
  rw [h, roundTo_value] at this
  exact ExactOr.ok_of_value this

/-- C59: division by one, in every mode. -/
theorem C59_rdiv_one {cfg : Cfg} (hv : Valid cfg L P) (x o : FP L P) (mode : RoundMode)
    (ho : FP.one cfg = (.ok o : Res ArithErr (FP L P))) : FP.rdiv cfg x o mode = .ok x := by
  obtain ⟨o', h1, h2, h3, _⟩ := recip_eq hv x mode
  have : o' = o := by rw [ho] at h1; cases h1; rfl
  subst this
  exact rdiv_exact hv _ _ _ _ (by rw [h2]; norm_num) (by rw [h3, Int.mul_tmod_left])
    (by rw [h2, div_one])

example := C59_rdiv_one (cfg := debugCfg) (by decide) (⟨-12⟩ : FP .i64 9) ⟨1000000000⟩ .nearest
  (by decide +kernel)

/-- C59: division of a non-zero value by itself gives one, in every mode. -/
theorem C59_rdiv_self {cfg : Cfg} (hv : Valid cfg L P) (x : FP L P) (mode : RoundMode)
    (hx : value x ≠ 0) : ∃ o, FP.rdiv cfg x x mode = .ok o ∧ value o = 1 := by
  obtain ⟨o, h1, h2, h3, _⟩ := recip_eq hv x mode
  exact ⟨o, rdiv_exact hv _ _ _ _ hx (Int.mul_tmod_right _ _) (by rw [div_self hx, h2]), h2⟩

example := C59_rdiv_self (cfg := debugCfg) (by decide) (FP.min : FP .i64 9) .nearest (by decide +kernel)

/-- C59: zero divided by a non-zero value is zero, in every mode. -/
theorem C59_zero_rdiv {cfg : Cfg} (hv : Valid cfg L P) (x : FP L P) (mode : RoundMode)
    (hx : value x ≠ 0) : FP.rdiv cfg FP.zero x mode = .ok FP.zero := by
  have h0 : (FP.zero : FP L P).inner.toInt = 0 := (value_eq_zero_iff _).1 C52_zero
  exact rdiv_exact hv _ _ _ _ hx (by rw [h0, zero_mul, Int.zero_tmod])
    (by rw [C52_zero, zero_div])

example := C59_zero_rdiv (cfg := debugCfg) (by decide) (⟨-317⟩ : FP .i64 2) .nearest (by decide +kernel)

example : (FP.one debugCfg : Res ArithErr (FP .i64 9)) = .ok ⟨1000000000⟩ := by decide +kernel
example : FP.rmul debugCfg (FP.min : FP .i64 9) ⟨1000000000⟩ .nearest = .ok FP.min := by
  decide +kernel
example : value (FP.max : FP .i64 9) ≠ 0 := (maxValue_pos .i64 9).ne' ∘ (C52_bounds_value.2 ▸ ·)

end Fixnum
