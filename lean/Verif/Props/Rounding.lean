import Verif.Props.Checked

/-!
# Properties C07–C15, C59: rounding multiplication and division
-/

namespace Fixnum

open Res Spec

variable {L : Layout} {P : Nat} {ε : Type}

/-- Debug and release profile used for concrete evaluations. -/
def debugCfg : Cfg := ⟨true, true, true, true⟩
def releaseCfg : Cfg := ⟨false, false, true, true⟩

/-! ## Helper lemmas -/

theorem mul_value_scaled (a b : FP L P) :
    value a * value b * 10 ^ P = ((a.inner.toInt * b.inner.toInt : Int) : ℚ) / ((10 ^ P : Int) : ℚ) := by
  have hpn := ten_pow_ne P
  unfold value; push_cast; field_simp

theorem div_value_scaled (a b : FP L P) (hb : b.inner.toInt ≠ 0) :
    value a / value b * 10 ^ P = ((a.inner.toInt * 10 ^ P : Int) : ℚ) / (b.inner.toInt : ℚ) := by
  have hpn := ten_pow_ne P
  have hb' : (b.inner.toInt : ℚ) ≠ 0 := by exact_mod_cast hb
  unfold value; push_cast; field_simp

theorem value_eq_zero_iff (b : FP L P) : value b = 0 ↔ b.inner.toInt = 0 := by
  unfold value
  rw [div_eq_zero_iff]
  constructor
  · rintro (h | h)
    · exact_mod_cast h
    · exact absurd h (ten_pow_ne P)
  · intro h; left; exact_mod_cast h

theorem ten_pow_int_ne (P : Nat) : (10 : Int) ^ P ≠ 0 := by positivity

/-! ## C07 -/

/-- The exact condition under which the `Nearest` test of `rmul` does not overflow, on the raw
product: the truncated quotient is already out of range, or twice the remainder fits the layout. -/
def RmulSafe (L : Layout) (P : Nat) (n : Int) : Prop :=
  rawMin L ≤ n.tdiv (10 ^ P) ∧ n.tdiv (10 ^ P) ≤ rawMax L →
    rawMin L ≤ 2 * n.tmod (10 ^ P) ∧ 2 * n.tmod (10 ^ P) ≤ rawMax L

/-- C07 with the exact condition under which the `Nearest` test of the code does not overflow:
twice the remainder of the raw product fits the layout.  (`Floor` and `Ceil` need nothing.)
Missing: the `Nearest` case for `FixedPoint<i128, U38>` with a remainder above `MAX/2`, which is
false, see `C07_rmul_false`. -/
theorem C07_rmul_remainder_partial {cfg : Cfg} (hv : Valid cfg L P) (a b : FP L P)
    (mode : RoundMode) (hn : mode = .nearest → RmulSafe L P (a.inner.toInt * b.inner.toInt)) :
    ExactOr ArithErr.overflow (FP.rmul cfg a b mode) (roundTo P mode (value a * value b)) := by
  rw [rmul_spec' hv a b mode fun h hf => (fits_iff L _).2 (hn h ((fits_iff L _).1 hf)),
    roundTo_div mode _ (ten_pow_int_ne P) (mul_value_scaled a b)]
  exact checkedFP_exactOr _

example := C07_rmul_remainder_partial (cfg := debugCfg) (by decide) (⟨1500000001⟩ : FP .i64 9)
  ⟨500000000⟩ .nearest (fun _ => by unfold RmulSafe; decide +kernel)

theorem remainder_ok {cfg : Cfg} (hv : Valid cfg L P) (hne : ¬ (L = .i128 ∧ P = 38)) (n : Int) :
    RmulSafe L P n := by
  intro _
  rw [← fits_iff]
  by_contra h
  rw [two_mul] at h
  exact hne (rmul_large hv n h)

/-- C07: `rmul` is the exact product rounded to `P` digits, or `Overflow` exactly when that is not
representable; no panic; every profile, every layout and precision.
Missing: mode `Nearest` of the single type `FixedPoint<i128, U38>`. -/
theorem C07_rmul_partial {cfg : Cfg} (hv : Valid cfg L P) (a b : FP L P) (mode : RoundMode)
    (hne : mode = .nearest → ¬ (L = .i128 ∧ P = 38)) :
    ExactOr ArithErr.overflow (FP.rmul cfg a b mode) (roundTo P mode (value a * value b)) :=
  C07_rmul_remainder_partial hv a b mode fun h => remainder_ok hv (hne h) _

example := C07_rmul_partial (cfg := debugCfg) (by decide) (⟨1500000001⟩ : FP .i64 9) ⟨500000000⟩
  .nearest (by decide)

theorem rmul_unsafe {cfg : Cfg} (hv : Valid cfg L P) (n : Int) (hs : ¬ RmulSafe L P n) :
    Fits L.bits (n.tdiv (10 ^ P)) ∧ Fits L.bits (n.tmod (10 ^ P)) ∧
    ¬ Fits L.bits (n.tmod (10 ^ P) + n.tmod (10 ^ P)) ∧ n.tmod (10 ^ P) ≠ 0 := by
  unfold RmulSafe at hs
  rw [Classical.not_imp, ← fits_iff, ← fits_iff, two_mul] at hs
  refine ⟨hs.1, ?_, hs.2, fun h => hs.2 ?_⟩
  · exact sub_tdiv_fits (ten_pow_fits hv) (ten_pow_int_ne P)
  · rw [h, fits_half]
    have := half_pos L
    omega

/-- C07: the condition is necessary in a build with overflow checks: outside it the call panics. -/
theorem C07_rmul_panics_iff {cfg : Cfg} (hv : Valid cfg L P)
    (hc : cfg.overflowChecks = true) (a b : FP L P) :
    FP.rmul cfg a b .nearest = .panic ↔ ¬ RmulSafe L P (a.inner.toInt * b.inner.toInt) := by
  constructor
  · intro h hs
    have := (C07_rmul_remainder_partial hv a b .nearest fun _ => hs).returns
    rw [h] at this
    exact this
  · intro h
    obtain ⟨h1, h2, h3, _⟩ := rmul_unsafe hv _ h
    rw [rmul_of_test hv a b .nearest h1, rmulTest_panic hc]
    · rfl
    · rwa [toInt_ofInt_of_fits (bits_pos L) h2]

example := C07_rmul_panics_iff (cfg := debugCfg) (by decide) rfl
  (⟨BitVec.ofInt 128 (10 ^ 38 - 1)⟩ : FP .i128 38) ⟨1⟩

/-- C07, what happens without overflow checks outside the condition: a non-negative product is
still rounded to nearest, a negative one is truncated. -/
theorem C07_rmul_wrapped {cfg : Cfg} (hv : Valid cfg L P)
    (hc : cfg.overflowChecks = false) (a b : FP L P)
    (hs : ¬ RmulSafe L P (a.inner.toInt * b.inner.toInt)) :
    ExactOr ArithErr.overflow (FP.rmul cfg a b .nearest)
      (roundTo P (if 0 ≤ value a * value b then .nearest else .ceil) (value a * value b)) := by
  obtain ⟨h1, h2, h3, h4⟩ := rmul_unsafe hv _ hs
  obtain ⟨rfl, rfl⟩ := rmul_large hv _ h3
  have hw := bits_pos Layout.i128
  have h0 : 0 ≤ value a * value b ↔ 0 ≤ a.inner.toInt * b.inner.toInt := by
    have := mul_value_scaled a b
    rw [← mul_nonneg_iff_of_pos_right (ten_pow_pos 38), this]
    rw [le_div_iff₀ (by norm_num), zero_mul]
    exact_mod_cast Iff.rfl
  rw [roundTo_div _ _ (ten_pow_int_ne 38) (mul_value_scaled a b)]
  simp only [h0]
  rw [rmul_of_test hv a b .nearest h1]
  generalize a.inner.toInt * b.inner.toInt = n at *
  rw [rmulTest_wrap hv hc _ _ n (toInt_ofInt_of_fits hw h2)
    (toInt_ofInt_of_fits hw (sign_fits' n)) h3, bind_ok']
  have hsc : n.sign * ((10 : Int) ^ 38).sign = n.sign := by
    rw [Int.sign_eq_one_of_pos (a := (10 : Int) ^ 38) (by norm_num), mul_one]
  have key : (if decide (0 ≤ n) = true then n.tdiv (10 ^ 38) + n.sign else n.tdiv (10 ^ 38)) =
      roundDiv (if 0 ≤ n then .nearest else .ceil) n (10 ^ 38) := by
    unfold roundDiv
    rw [loss_eq, hsc]
    by_cases hn0 : 0 ≤ n
    · rw [if_pos hn0, decide_eq_true hn0, if_pos rfl, if_pos]
      have hl0 := tmod_nonneg' (10 ^ 38) hn0
      rw [fits_half, show half .i128 = 2 ^ 127 from rfl] at h3
      show |(10 : Int) ^ 38| ≤ 2 * |n.tmod (10 ^ 38)|
      rw [abs_of_nonneg hl0, abs_of_pos (by norm_num)]
      generalize n.tmod (10 ^ 38) = l at *
      norm_num at *
      omega
    · rw [if_neg hn0, decide_eq_false hn0, if_neg (by simp), if_neg, add_zero]
      rintro ⟨_, h⟩
      rw [Int.sign_eq_neg_one_of_neg (by omega)] at h
      omega
  rw [key]
  exact checkedFP_exactOr _

example := C07_rmul_wrapped (cfg := releaseCfg) (by decide) rfl
  (⟨BitVec.ofInt 128 (10 ^ 38 - 1)⟩ : FP .i128 38) ⟨-1⟩ (by unfold RmulSafe; decide +kernel)

/-- C07 for `Floor`, without exceptions: the greatest multiple of `10^-P` not above the product. -/
theorem C07_rmul_floor {cfg : Cfg} (hv : Valid cfg L P) (a b r : FP L P)
    (h : FP.rmul cfg a b .floor = .ok r) :
    value r ≤ value a * value b ∧
    ∀ n : Int, (n : ℚ) / 10 ^ P ≤ value a * value b → (n : ℚ) / 10 ^ P ≤ value r := by
  have := C07_rmul_partial hv a b .floor (by simp)
  rw [(this.ok_iff r).1 h]
  exact roundTo_floor_spec P _

example := C07_rmul_floor (cfg := debugCfg) (by decide) (⟨1500000001⟩ : FP .i64 9) ⟨500000000⟩
  ⟨750000000⟩ (by decide +kernel)

/-- C07 for `Ceil`, without exceptions: the least multiple of `10^-P` not below the product. -/
theorem C07_rmul_ceil {cfg : Cfg} (hv : Valid cfg L P) (a b r : FP L P)
    (h : FP.rmul cfg a b .ceil = .ok r) :
    value a * value b ≤ value r ∧
    ∀ n : Int, value a * value b ≤ (n : ℚ) / 10 ^ P → value r ≤ (n : ℚ) / 10 ^ P := by
  have := C07_rmul_partial hv a b .ceil (by simp)
  rw [(this.ok_iff r).1 h]
  exact roundTo_ceil_spec P _

example := C07_rmul_ceil (cfg := debugCfg) (by decide) (⟨1500000001⟩ : FP .i64 9) ⟨500000000⟩
  ⟨750000001⟩ (by decide +kernel)

/-- C07 for `Nearest`: a closest multiple of `10^-P`, and the one farther from zero of two equally
close ones.  Missing: `FixedPoint<i128, U38>`. -/
theorem C07_rmul_nearest_partial {cfg : Cfg} (hv : Valid cfg L P) (a b r : FP L P)
    (hne : ¬ (L = .i128 ∧ P = 38)) (h : FP.rmul cfg a b .nearest = .ok r) (n : Int) :
    |value a * value b - value r| ≤ |value a * value b - (n : ℚ) / 10 ^ P| ∧
    (|value a * value b - value r| = |value a * value b - (n : ℚ) / 10 ^ P| →
      |(n : ℚ) / 10 ^ P| ≤ |value r|) := by
  have := C07_rmul_partial hv a b .nearest (fun _ => hne)
  rw [(this.ok_iff r).1 h]
  exact roundTo_nearest_spec P _ n

example := C07_rmul_nearest_partial (cfg := debugCfg) (by decide) (⟨1500000001⟩ : FP .i64 9)
  ⟨500000000⟩ ⟨750000001⟩ (by decide) (by decide +kernel) 750000000

/-- C07 is false for `Nearest` on `FixedPoint<i128, U38>`: in a debug build
`0.99999…9 * 10^-38` (raw `10^38 - 1` and `1`) panics in `loss + loss`. -/
theorem C07_rmul_false :
    ¬ ∀ (cfg : Cfg) (L : Layout) (P : Nat), Valid cfg L P → ∀ (a b : FP L P) (mode : RoundMode),
      ExactOr ArithErr.overflow (FP.rmul cfg a b mode) (roundTo P mode (value a * value b)) := by
  intro h
  have h1 := h debugCfg .i128 38 (by decide) ⟨BitVec.ofInt 128 (10 ^ 38 - 1)⟩
    ⟨BitVec.ofInt 128 1⟩ .nearest
  have h2 : FP.rmul debugCfg (⟨BitVec.ofInt 128 (10 ^ 38 - 1)⟩ : FP .i128 38)
    ⟨BitVec.ofInt 128 1⟩ .nearest = .panic := by decide +kernel
  have h3 := h1.returns
  rw [h2] at h3
  exact h3

/-- …and in a release build the result is wrong: `-0.99999…9 * 10^-38` rounded to nearest
is `-10^-38`, the code returns `0`. -/
theorem C07_rmul_release_false :
    FP.rmul releaseCfg (⟨BitVec.ofInt 128 (1 - 10 ^ 38)⟩ : FP .i128 38) ⟨BitVec.ofInt 128 1⟩
      .nearest = .ok ⟨BitVec.ofInt 128 0⟩ ∧
    roundTo 38 .nearest (value (⟨BitVec.ofInt 128 (1 - 10 ^ 38)⟩ : FP .i128 38) *
      value (⟨BitVec.ofInt 128 1⟩ : FP .i128 38)) = -1 / 10 ^ 38 := by
  refine ⟨by decide +kernel, ?_⟩
  rw [roundTo_div .nearest _ (ten_pow_int_ne 38) (mul_value_scaled _ _)]
  have : roundDiv .nearest ((⟨BitVec.ofInt 128 (1 - 10 ^ 38)⟩ : FP .i128 38).inner.toInt *
    (⟨BitVec.ofInt 128 1⟩ : FP .i128 38).inner.toInt) (10 ^ 38) = -1 := by decide +kernel
  rw [this]; norm_num

example : Valid debugCfg .i64 9 ∧ ¬ (Layout.i64 = .i128 ∧ 9 = 38) := by decide
example : RmulSafe .i128 38 (10 ^ 38 * 3 + 5) ∧ ¬ RmulSafe .i128 38 (10 ^ 38 - 1) := by
  unfold RmulSafe; decide +kernel
example : FP.rmul debugCfg (⟨1500000001⟩ : FP .i64 9) ⟨500000000⟩ .floor = .ok ⟨750000000⟩ := by
  decide +kernel
example : FP.rmul debugCfg (⟨1500000001⟩ : FP .i64 9) ⟨500000000⟩ .nearest = .ok ⟨750000001⟩ := by
  decide +kernel
example : FP.rmul debugCfg (⟨1500000001⟩ : FP .i64 9) ⟨-500000000⟩ .ceil = .ok ⟨-750000000⟩ := by
  decide +kernel
example : FP.rmul debugCfg (FP.max : FP .i64 9) ⟨1000000001⟩ .floor = .err .overflow := by
  decide +kernel
example : FP.rmul debugCfg (⟨BitVec.ofInt 128 (10 ^ 37)⟩ : FP .i128 18)
    ⟨BitVec.ofInt 128 (-3 * 10 ^ 17)⟩ .floor = .ok ⟨BitVec.ofInt 128 (-3 * 10 ^ 36)⟩ := by
  decide +kernel

/-! ## C08 -/

/-- Results of the promotion type's multiplication are determined by the exact product. -/
theorem prom_mul_congr (cfg : Cfg) (a b c d : BitVec L.bits)
    (h : a.toInt * b.toInt = c.toInt * d.toInt) :
    (prom L).mul cfg ((prom L).ofL a) ((prom L).ofL b) =
      (prom L).mul cfg ((prom L).ofL c) ((prom L).ofL d) := by
  have S := prom_sound L
  have key : ∀ x y : BitVec L.bits, ∃ r,
      (prom L).mul cfg ((prom L).ofL x) ((prom L).ofL y) = .ok r ∧
      (prom L).toInt r = x.toInt * y.toInt := by
    intro x y
    obtain ⟨r, hr, er⟩ := S.mul cfg ((prom L).ofL x) ((prom L).ofL y)
      (by rw [S.ofL]; exact lt_of_le_of_lt (abs_le_half _) (half_lt L))
      (by rw [S.ofL]; exact lt_of_le_of_lt (abs_le_half _) (half_lt L))
      (by rw [S.ofL, S.ofL]; exact abs_mul_le_half (abs_le_half _) (abs_le_half _))
    rw [S.ofL, S.ofL] at er
    exact ⟨r, hr, er⟩
  obtain ⟨r, hr, er⟩ := key a b
  obtain ⟨s, hs, es⟩ := key c d
  rw [hr, hs]
  have he : (prom L).toInt r = (prom L).toInt s := by rw [er, es, h]
  -- `eq` decides equality of the numbers and of the values
  rw [S.inj r s he]

/-- C08: `rmul` is commutative, for all types, modes and profiles, including the error cases. -/
theorem C08_rmul_comm (cfg : Cfg) (a b : FP L P) (mode : RoundMode) :
    FP.rmul cfg a b mode = FP.rmul cfg b a mode := by
  unfold FP.rmul
  dsimp only
  rw [prom_mul_congr cfg a.inner b.inner b.inner a.inner (mul_comm _ _)]
  have : (SInt.mul cfg (SInt.signum a.inner) (SInt.signum b.inner) : Res ArithErr _) =
      SInt.mul cfg (SInt.signum b.inner) (SInt.signum a.inner) := by
    unfold SInt.mul; rw [mul_comm]
  rw [this]

example : FP.rmul debugCfg (⟨15⟩ : FP .i64 1) ⟨-7⟩ .floor = .ok ⟨-11⟩ ∧
    FP.rmul debugCfg (⟨-7⟩ : FP .i64 1) ⟨15⟩ .floor = .ok ⟨-11⟩ := by decide +kernel

theorem cneg_toInt {a a' : FP L P} (h : FP.cneg a = .ok a') :
    a'.inner.toInt = -a.inner.toInt := by
  have h1 := ((C04_cneg_exact a).ok_iff a').1 h
  unfold value at h1
  rw [← neg_div, div_left_inj' (ten_pow_ne P)] at h1
  exact_mod_cast h1

/-- C08: negating both operands does not change the result. -/
theorem C08_rmul_neg_neg (cfg : Cfg) (a b a' b' : FP L P) (mode : RoundMode)
    (ha : FP.cneg a = .ok a') (hb : FP.cneg b = .ok b') :
    FP.rmul cfg a' b' mode = FP.rmul cfg a b mode := by
  have ha' := cneg_toInt ha
  have hb' := cneg_toInt hb
  unfold FP.rmul
  dsimp only
  rw [prom_mul_congr cfg a'.inner b'.inner a.inner b.inner (by rw [ha', hb']; ring)]
  have : (SInt.mul cfg (SInt.signum a'.inner) (SInt.signum b'.inner) : Res ArithErr _) =
      SInt.mul cfg (SInt.signum a.inner) (SInt.signum b.inner) := by
    have hw : 1 < L.bits := by have := bits_ge L; omega
    unfold SInt.mul
    rw [SInt.signum_toInt hw, SInt.signum_toInt hw, SInt.signum_toInt hw, SInt.signum_toInt hw,
      ha', hb', Int.sign_neg, Int.sign_neg, neg_mul_neg]
  rw [this]

example := C08_rmul_neg_neg debugCfg (⟨7⟩ : FP .i64 9) ⟨-9⟩ ⟨-7⟩ ⟨9⟩ .nearest (by decide) (by decide)

/-- C08: negating one operand turns `Floor` into the negated `Ceil` (and `Nearest` into the negated
`Nearest`), including which results overflow. -/
theorem C08_rmul_neg {cfg : Cfg} (hv : Valid cfg L P) (a b a' : FP L P) (mode : RoundMode)
    (hne : mode = .nearest → ¬ (L = .i128 ∧ P = 38)) (ha : FP.cneg a = .ok a') :
    ExactOr ArithErr.overflow (FP.rmul cfg a' b mode)
      (-roundTo P (flip mode) (value a * value b)) := by
  have h := C07_rmul_partial hv a' b mode hne
  rwa [((C04_cneg_exact a).ok_iff a').1 ha, neg_mul, roundTo_neg] at h

example : FP.cneg (⟨7⟩ : FP .i64 9) = .ok ⟨-7⟩ ∧ FP.cneg (⟨-9⟩ : FP .i64 9) = .ok ⟨9⟩ := by decide
example : FP.rmul debugCfg (⟨700000000⟩ : FP .i64 9) ⟨1⟩ .floor = .ok ⟨0⟩ ∧
    FP.rmul debugCfg (⟨-700000000⟩ : FP .i64 9) ⟨1⟩ .ceil = .ok ⟨0⟩ ∧
    FP.rmul debugCfg (⟨-700000000⟩ : FP .i64 9) ⟨1⟩ .floor = .ok ⟨-1⟩ := by
  decide +kernel

/-! ## C09 -/

theorem value_lt_zero_iff (a : FP L P) : FP.cmp a FP.zero = .lt ↔ value a < 0 := by
  rw [C54_cmp, C52_zero, compare_lt_iff_lt]

theorem minValue_neg (L : Layout) (P : Nat) : minValue L P < 0 := by
  have h := half_pos L
  unfold minValue
  rw [rawMin_half]
  apply div_neg_of_neg_of_pos _ (ten_pow_pos P)
  exact_mod_cast (show -half L < 0 by omega)

theorem maxValue_pos (L : Layout) (P : Nat) : 0 < maxValue L P := by
  have h := half_pos L
  unfold maxValue
  rw [rawMax_half]
  apply div_pos _ (ten_pow_pos P)
  exact_mod_cast (show 0 < half L - 1 by omega)

theorem clamp_value (x : FP L P) : clamp L P (value x) = value x := by
  have h := C52_bounds x
  rw [C52_bounds_value.1, C52_bounds_value.2] at h
  unfold clamp
  rw [min_eq_right h.2, max_eq_right h.1]

/-- A multiple of `10^-P` that is not representable lies outside the range. -/
theorem not_representable_roundTo {mode : RoundMode} {q : ℚ}
    (h : ¬ Representable L P (roundTo P mode q)) :
    roundTo P mode q < minValue L P ∨ maxValue L P < roundTo P mode q := by
  have hp := ten_pow_pos P
  unfold roundTo minValue maxValue at *
  rw [representable_iff, fits_iff, not_and_or, not_le, not_le] at h
  rw [div_lt_div_iff_of_pos_right hp, div_lt_div_iff_of_pos_right hp]
  exact_mod_cast h

theorem saturatingRmul_of_exact {cfg : Cfg} (a b : FP L P) (md mode : RoundMode)
    (h : ExactOr ArithErr.overflow (FP.rmul cfg a b md) (roundTo P mode (value a * value b))) :
    ∃ r, (FP.saturatingRmul cfg a b md : Res ε (FP L P)) = .ok r ∧
      value r = clamp L P (roundTo P mode (value a * value b)) := by
  unfold FP.saturatingRmul
  by_cases hr : Representable L P (roundTo P mode (value a * value b))
  · obtain ⟨c, hc, ec⟩ := h.1 hr
    refine ⟨c, by rw [hc, unwrapOr_ok], ?_⟩
    rw [← ec, clamp_value]
  · rw [h.2 hr]
    simp only [unwrapOr_err, value_lt_zero_iff]
    refine ⟨_, rfl, ?_⟩
    have h0 : roundTo P mode (0 : ℚ) = 0 := by
      have := roundTo_value mode (FP.zero : FP L P)
      rwa [C52_zero] at this
    have hmin := minValue_neg L P
    have hmax := maxValue_pos L P
    rcases not_representable_roundTo hr with hlt | hgt
    · -- the product is negative
      have hneg : value a * value b < 0 := by
        by_contra hc
        have := roundTo_mono P mode (not_lt.1 hc)
        rw [h0] at this; linarith
      have hs : (decide (value a < 0) == decide (value b < 0)) = false := by
        rcases mul_neg_iff.1 hneg with ⟨h1, h2⟩ | ⟨h1, h2⟩
        · simp [h2, not_lt.2 h1.le]
        · simp [h1, not_lt.2 h2.le]
      rw [hs, if_neg (by simp), C52_bounds_value.1]
      unfold clamp
      rw [min_eq_right (by linarith), max_eq_left (by linarith)]
    · have hpos : 0 < value a * value b := by
        by_contra hc
        have := roundTo_mono P mode (not_lt.1 hc)
        rw [h0] at this; linarith
      have hs : (decide (value a < 0) == decide (value b < 0)) = true := by
        rcases mul_pos_iff.1 hpos with ⟨h1, h2⟩ | ⟨h1, h2⟩
        · simp [not_lt.2 h2.le, not_lt.2 h1.le]
        · simp [h1, h2]
      rw [hs, if_pos rfl, C52_bounds_value.2]
      unfold clamp
      rw [min_eq_left (by linarith), max_eq_right (by linarith)]

/-- C09 under the exact condition of C07.  Missing: the `Nearest` case of
`FixedPoint<i128, U38>` with a remainder above `MAX/2`. -/
theorem C09_saturating_rmul_partial {cfg : Cfg} (hv : Valid cfg L P) (a b : FP L P)
    (mode : RoundMode) (hn : mode = .nearest → RmulSafe L P (a.inner.toInt * b.inner.toInt)) :
    ∃ r, (FP.saturatingRmul cfg a b mode : Res ε (FP L P)) = .ok r ∧
      value r = clamp L P (roundTo P mode (value a * value b)) :=
  saturatingRmul_of_exact a b mode mode (C07_rmul_remainder_partial hv a b mode hn)

example := C09_saturating_rmul_partial (ε := Unit) (cfg := debugCfg) (by decide)
  (FP.max : FP .i64 9) ⟨-2000000000⟩ .nearest (fun _ => by unfold RmulSafe; decide +kernel)

/-- C09: with overflow checks the call panics exactly outside the condition. -/
theorem C09_saturating_rmul_panics_iff {cfg : Cfg} (hv : Valid cfg L P)
    (hc : cfg.overflowChecks = true) (a b : FP L P) :
    (FP.saturatingRmul cfg a b .nearest : Res ε (FP L P)) = .panic ↔
      ¬ RmulSafe L P (a.inner.toInt * b.inner.toInt) := by
  constructor
  · intro h hs
    obtain ⟨r, hr, _⟩ := C09_saturating_rmul_partial (ε := ε) hv a b .nearest fun _ => hs
    rw [hr] at h
    simp [Res.panic] at h
  · intro h
    unfold FP.saturatingRmul
    rw [(C07_rmul_panics_iff hv hc a b).2 h]
    rfl

example := C09_saturating_rmul_panics_iff (ε := Unit) (cfg := debugCfg) (by decide) rfl
  (⟨BitVec.ofInt 128 (10 ^ 38 - 1)⟩ : FP .i128 38) ⟨1⟩

/-- C09, without overflow checks outside the condition: as `C07_rmul_wrapped`, clamped. -/
theorem C09_saturating_rmul_wrapped {cfg : Cfg} (hv : Valid cfg L P)
    (hc : cfg.overflowChecks = false) (a b : FP L P)
    (hs : ¬ RmulSafe L P (a.inner.toInt * b.inner.toInt)) :
    ∃ r, (FP.saturatingRmul cfg a b .nearest : Res ε (FP L P)) = .ok r ∧
      value r = clamp L P
        (roundTo P (if 0 ≤ value a * value b then .nearest else .ceil) (value a * value b)) :=
  saturatingRmul_of_exact a b .nearest _ (C07_rmul_wrapped hv hc a b hs)

example := C09_saturating_rmul_wrapped (ε := Unit) (cfg := releaseCfg) (by decide) rfl
  (⟨BitVec.ofInt 128 (10 ^ 38 - 1)⟩ : FP .i128 38) ⟨-1⟩ (by unfold RmulSafe; decide +kernel)

/-- C09 for all types except `Nearest` on `FixedPoint<i128, U38>`. -/
theorem C09_saturating_rmul_types_partial {cfg : Cfg} (hv : Valid cfg L P) (a b : FP L P)
    (mode : RoundMode) (hne : mode = .nearest → ¬ (L = .i128 ∧ P = 38)) :
    ∃ r, (FP.saturatingRmul cfg a b mode : Res ε (FP L P)) = .ok r ∧
      value r = clamp L P (roundTo P mode (value a * value b)) :=
  C09_saturating_rmul_partial hv a b mode fun h => remainder_ok hv (hne h) _

example := C09_saturating_rmul_types_partial (ε := Unit) (cfg := debugCfg) (by decide)
  (FP.max : FP .i64 9) ⟨-2000000000⟩ .nearest (by decide)

/-- C09 is false for `Nearest` on `FixedPoint<i128, U38>` (the same overflow as C07). -/
theorem C09_saturating_rmul_false :
    (FP.saturatingRmul debugCfg (⟨BitVec.ofInt 128 (10 ^ 38 - 1)⟩ : FP .i128 38)
      ⟨BitVec.ofInt 128 1⟩ .nearest : Res Unit (FP .i128 38)) = .panic := by decide +kernel

example : (FP.saturatingRmul releaseCfg (⟨BitVec.ofInt 128 (10 ^ 38 - 1)⟩ : FP .i128 38)
      ⟨BitVec.ofInt 128 (-1)⟩ .nearest : Res Unit (FP .i128 38)) = .ok ⟨0⟩ ∧
    ¬ RmulSafe .i128 38 ((10 ^ 38 - 1) * (-1)) := by
  unfold RmulSafe; decide +kernel
example : (FP.saturatingRmul debugCfg (FP.max : FP .i64 9) ⟨-2000000000⟩ .floor :
    Res Unit (FP .i64 9)) = .ok FP.min := by decide +kernel
example : (FP.saturatingRmul debugCfg (FP.min : FP .i64 9) ⟨-2000000000⟩ .floor :
    Res Unit (FP .i64 9)) = .ok FP.max := by decide +kernel

end Fixnum
