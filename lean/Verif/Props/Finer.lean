import Verif.Props.ErrorMax
import Verif.Props.Layouts
import Verif.Props.Algebra
import Verif.Props.Monotone

/-!
# Property C117: more digits compute the same, to the coarser digits

`FixedPoint<L, P>` and `FixedPoint<L', P'>` with `P ≤ P'`, on operands denoting the same numbers.  The
layouts are independent of each other, except where a range is compared, and so are the builds.
-/

namespace Fixnum

open Res Spec

variable {L L' : Layout} {P P' : Nat} {ε : Type}

/-- How the outcome `r` with fewer digits relates to the outcome `r'` with more digits: two results
are related by `f`, and if the type with more digits is not the wider one, it fails wherever the
other one fails. -/
structure Coarsens (f : ℚ → ℚ) (r : Res ε (FP L P)) (r' : Res ε (FP L' P')) : Prop where
  number : ∀ x y, r = .ok x → r' = .ok y → value x = f (value y)
  returns : L'.bits ≤ L.bits → ∀ y, r' = .ok y → ∃ x, r = .ok x

/-- Every multiple of `10^-P` is a multiple of `10^-P'`. -/
theorem finer_multiple (hP : P ≤ P') (n : Int) :
    (n : ℚ) / 10 ^ P = ((n * 10 ^ (P' - P) : Int) : ℚ) / 10 ^ P' := by
  obtain ⟨k, rfl⟩ := Nat.exists_eq_add_of_le hP
  rw [Nat.add_sub_cancel_left, pow_add]
  push_cast
  field_simp

/-- Directed rounding to more digits and then to fewer. -/
theorem roundTo_roundTo (hP : P ≤ P') {mode : RoundMode} (hm : mode ≠ .nearest) (q : ℚ) :
    roundTo P mode (roundTo P' mode q) = roundTo P mode q := by
  have hp := ten_pow_pos P
  cases mode with
  | nearest => exact absurd rfl hm
  | floor =>
    apply le_antisymm
    · exact roundTo_mono P _ (roundTo_floor_spec P' q).1
    · refine (roundTo_floor_spec P _).2 ⌊q * 10 ^ P⌋ ?_
      rw [finer_multiple hP]
      refine (roundTo_floor_spec P' q).2 _ ?_
      rw [← finer_multiple hP]
      exact (roundTo_floor_spec P q).1
  | ceil =>
    apply le_antisymm
    · refine (roundTo_ceil_spec P _).2 ⌈q * 10 ^ P⌉ ?_
      rw [finer_multiple hP]
      refine (roundTo_ceil_spec P' q).2 _ ?_
      rw [← finer_multiple hP]
      exact (roundTo_ceil_spec P q).1
    · exact roundTo_mono P _ (roundTo_ceil_spec P' q).1

/-- A number of the range of the type with more digits, rounded to fewer digits, is in the range of
the type with fewer digits. -/
theorem representable_coarser (hL : L'.bits ≤ L.bits) (hP : P ≤ P') (mode : RoundMode) {q : ℚ}
    (h : Representable L' P' q) : Representable L P (roundTo P mode q) := by
  obtain ⟨c, rfl⟩ := h
  have hp := ten_pow_pos P
  have hp' := ten_pow_pos P'
  have hpp : (10 : ℚ) ^ P ≤ 10 ^ P' := pow_le_pow_right₀ (by norm_num) hP
  have hc : Fits L.bits c.inner.toInt := by
    have hz := toInt_fits c.inner
    rcases Nat.lt_or_eq_of_le hL with k | k
    · exact fits_widen k hz
    · rw [← k]; exact hz
  unfold roundTo
  rw [representable_iff]
  rw [fits_half] at hc ⊢
  have hh := half_pos L
  set z := c.inner.toInt with hz
  have key : |value c * 10 ^ P| ≤ |(z : ℚ)| := by
    unfold value
    rw [← hz, abs_mul, abs_div, abs_of_pos hp, abs_of_pos hp', div_mul_eq_mul_div, div_le_iff₀ hp']
    exact mul_le_mul_of_nonneg_left hpp (abs_nonneg _)
  have hs : 0 ≤ (z : ℚ) ↔ 0 ≤ value c * 10 ^ P := by
    unfold value
    rw [← hz, div_mul_eq_mul_div, le_div_iff₀ hp', zero_mul]
    exact ⟨fun h => mul_nonneg h hp.le, fun h => nonneg_of_mul_nonneg_left h hp⟩
  have lo : ((-half L : Int) : ℚ) ≤ value c * 10 ^ P ∧ value c * 10 ^ P ≤ ((half L - 1 : Int) : ℚ) := by
    have c1 : ((-half L : Int) : ℚ) ≤ z := by exact_mod_cast hc.1
    have c2 : (z : ℚ) ≤ ((half L - 1 : Int) : ℚ) := by exact_mod_cast hc.2
    have c3 : (0 : ℚ) ≤ ((half L - 1 : Int) : ℚ) := by exact_mod_cast (by omega : (0 : Int) ≤ half L - 1)
    have c4 : ((-half L : Int) : ℚ) ≤ 0 := by exact_mod_cast (by omega : (-half L : Int) ≤ 0)
    by_cases k : 0 ≤ (z : ℚ)
    · have k' := hs.1 k
      rw [abs_of_nonneg k, abs_of_nonneg k'] at key
      constructor <;> linarith
    · have k' : ¬ 0 ≤ value c * 10 ^ P := fun h => k (hs.2 h)
      rw [abs_of_neg (not_le.1 k), abs_of_neg (not_le.1 k')] at key
      constructor <;> linarith [not_le.1 k, not_le.1 k']
  refine ⟨?_, ?_⟩
  · have := round_mono mode lo.1
    rwa [round_int] at this
  · have := round_mono mode lo.2
    rwa [round_int] at this

theorem coarsens_rounded (hP : P ≤ P') {mode : RoundMode} (hm : mode ≠ .nearest) {e e' : ε}
    {r : Res ε (FP L P)} {r' : Res ε (FP L' P')} {q : ℚ} (h1 : ExactOr e r (roundTo P mode q))
    (h2 : ExactOr e' r' (roundTo P' mode q)) : Coarsens (roundTo P mode) r r' := by
  refine ⟨fun x y hx hy => ?_, fun hL y hy => ?_⟩
  · rw [(h1.ok_iff x).1 hx, (h2.ok_iff y).1 hy, roundTo_roundTo hP hm]
  · have e2 := (h2.ok_iff y).1 hy
    have := representable_coarser hL hP mode ⟨y, e2⟩
    rw [roundTo_roundTo hP hm] at this
    obtain ⟨x, hx, _⟩ := h1.1 this
    exact ⟨x, hx⟩

theorem coarsens_exact (hP : P ≤ P') {e e' : ε} {r : Res ε (FP L P)} {r' : Res ε (FP L' P')} {z : Int}
    {q : ℚ} (hq : q = (z : ℚ) / 10 ^ P) (h1 : ExactOr e r q) (h2 : ExactOr e' r' q) :
    Coarsens id r r' := by
  have hr : roundTo P .floor q = q := by
    unfold roundTo
    rw [hq, div_mul_cancel₀ _ (ten_pow_ne P), round_int]
  refine ⟨fun x y hx hy => ?_, fun hL y hy => ?_⟩
  · rw [(h1.ok_iff x).1 hx, (h2.ok_iff y).1 hy]; rfl
  · have e2 := (h2.ok_iff y).1 hy
    have := representable_coarser hL hP .floor ⟨y, e2⟩
    rw [hr] at this
    obtain ⟨x, hx, _⟩ := h1.1 this
    exact ⟨x, hx⟩

theorem coarsens_err {f : ℚ → ℚ} {e' : ε} {r : Res ε (FP L P)} {r' : Res ε (FP L' P')}
    (h2 : r' = .err e') : Coarsens f r r' := by
  subst h2
  exact ⟨fun x y _ hy => (by cases hy), fun _ y hy => (by cases hy)⟩

/-! ## The exact operations -/

/-- C117: addition, subtraction, multiplication by an integer, negation and the absolute value return
the same number. -/
theorem C117_exact (hP : P ≤ P') {a b : FP L P} {a' b' : FP L' P'} (ha : value a' = value a)
    (hb : value b' = value b) {n : BitVec L.bits} {n' : BitVec L'.bits} (hn : n'.toInt = n.toInt) :
    Coarsens id (FP.cadd a b) (FP.cadd a' b') ∧
    Coarsens id (FP.csub a b) (FP.csub a' b') ∧
    Coarsens id (FP.cmul a n) (FP.cmul a' n') ∧
    Coarsens id (FP.cneg a) (FP.cneg a') ∧
    Coarsens id (FP.abs a) (FP.abs a') := by
  have h1 := C01_cadd_exact a' b'
  have h2 := C02_csub_exact a' b'
  have h3 := C03_cmul_exact a' n'
  have h4 := C04_cneg_exact a'
  have h5 := C04_abs_exact a'
  rw [ha, hb] at h1 h2
  rw [ha, hn] at h3
  rw [ha] at h4 h5
  have hp := ten_pow_pos P
  refine ⟨coarsens_exact hP (z := a.inner.toInt + b.inner.toInt) ?_ (C01_cadd_exact a b) h1,
    coarsens_exact hP (z := a.inner.toInt - b.inner.toInt) ?_ (C02_csub_exact a b) h2,
    coarsens_exact hP (z := a.inner.toInt * n.toInt) ?_ (C03_cmul_exact a n) h3,
    coarsens_exact hP (z := -a.inner.toInt) ?_ (C04_cneg_exact a) h4,
    coarsens_exact hP (z := |a.inner.toInt|) ?_ (C04_abs_exact a) h5⟩
  · unfold value; push_cast; ring
  · unfold value; push_cast; ring
  · unfold value; push_cast; ring
  · unfold value; push_cast; ring
  · unfold value; push_cast; rw [abs_div, abs_of_pos hp]

example := C117_exact (P := 2) (P' := 9) (by decide) (a := (⟨-157⟩ : FP .i64 2))
  (a' := (⟨-1570000000⟩ : FP .i64 9)) (b := ⟨250⟩) (b' := ⟨2500000000⟩) (by decide +kernel)
  (by decide +kernel) (n := -7) (n' := -7) rfl

/-- C117: the order does not depend on the number of digits. -/
theorem C117_cmp {a b : FP L P} {a' b' : FP L' P'} (ha : value a' = value a)
    (hb : value b' = value b) : FP.cmp a b = FP.cmp a' b' := by
  rw [C54_cmp, C54_cmp, ha, hb]

example := C117_cmp (a := (⟨-157⟩ : FP .i64 2)) (a' := (⟨-1570000000⟩ : FP .i64 9)) (b := ⟨250⟩)
  (b' := ⟨2500000000⟩) (by decide +kernel) (by decide +kernel)

/-- C117: rounding to a multiple of a number does not depend on the number of digits. -/
theorem C117_round_towards_zero_by {a p : FP L P} {a' p' : FP L' P'} (ha : value a' = value a)
    (hp : value p' = value p) (h0 : value p ≠ 0) :
    value (FP.roundTowardsZeroBy a p) = value (FP.roundTowardsZeroBy a' p') := by
  rw [C20_truncated a p h0, C20_truncated a' p' (by rwa [hp]), ha, hp]

example := C117_round_towards_zero_by (a := (⟨-157⟩ : FP .i64 2))
  (a' := (⟨-1570000000⟩ : FP .i64 9)) (p := ⟨50⟩) (p' := ⟨500000000⟩) (by decide +kernel)
  (by decide +kernel) (by decide +kernel)

/-- C117: the integral part does not depend on the number of digits. -/
theorem C117_integral {cfg cfg' : Cfg} (hv : Valid cfg L P) (hv' : Valid cfg' L' P') {a : FP L P}
    {a' : FP L' P'} (ha : value a' = value a) (h1 : value a ≠ minValue L P)
    (h2 : value a' ≠ minValue L' P') (mode : RoundMode)
    (hn : mode = .nearest → ¬ (L = .i128 ∧ P = 38) ∧ ¬ (L' = .i128 ∧ P' = 38)) :
    ∃ i i', (FP.integral cfg a mode : Res ε _) = .ok i ∧ (FP.integral cfg' a' mode : Res ε _) = .ok i' ∧
      i.toInt = i'.toInt := by
  obtain ⟨i, e1, v1⟩ := C18_integral_types_partial (ε := ε) hv a mode h1 fun h => (hn h).1
  obtain ⟨i', e2, v2⟩ := C18_integral_types_partial (ε := ε) hv' a' mode h2 fun h => (hn h).2
  exact ⟨i, i', e1, e2, by rw [v1, v2, ha]⟩

example := C117_integral (ε := Unit) (cfg := debugCfg) (cfg' := releaseCfg) (by decide) (by decide)
  (a := (⟨-157⟩ : FP .i64 2)) (a' := (⟨-1570000000⟩ : FP .i64 9)) (by decide +kernel)
  (by decide +kernel) (by decide +kernel) .nearest (by decide)

/-! ## The rounding operations -/

/-- C117: with `Floor` or `Ceil` the product with fewer digits is the product with more digits,
rounded in the same direction. -/
theorem C117_rmul {cfg cfg' : Cfg} (hv : Valid cfg L P) (hv' : Valid cfg' L' P') (hP : P ≤ P')
    {a b : FP L P} {a' b' : FP L' P'} (ha : value a' = value a) (hb : value b' = value b)
    {mode : RoundMode} (hm : mode ≠ .nearest) :
    Coarsens (roundTo P mode) (FP.rmul cfg a b mode) (FP.rmul cfg' a' b' mode) := by
  have h2 := C07_rmul_partial hv' a' b' mode fun h => absurd h hm
  rw [ha, hb] at h2
  exact coarsens_rounded hP hm (C07_rmul_partial hv a b mode fun h => absurd h hm) h2

/-- 1.57 · 2.51 = 3.9407 -/
example : FP.rmul debugCfg (⟨157⟩ : FP .i64 2) ⟨251⟩ .floor = .ok ⟨394⟩ ∧
    FP.rmul debugCfg (⟨1570⟩ : FP .i64 3) ⟨2510⟩ .floor = .ok ⟨3940⟩ := by decide +kernel
example := C117_rmul (cfg := debugCfg) (cfg' := debugCfg) (by decide) (by decide) (P := 2) (P' := 3)
  (by decide) (a := (⟨157⟩ : FP .i64 2)) (a' := (⟨1570⟩ : FP .i64 3)) (b := ⟨251⟩) (b' := ⟨2510⟩)
  (by decide +kernel) (by decide +kernel) (mode := .ceil) (by decide)

/-- C117: quotients. -/
theorem C117_rdiv {cfg cfg' : Cfg} (hv : Valid cfg L P) (hv' : Valid cfg' L' P') (hP : P ≤ P')
    {a b : FP L P} {a' b' : FP L' P'} (ha : value a' = value a) (hb : value b' = value b)
    {mode : RoundMode} (hm : mode ≠ .nearest) :
    Coarsens (roundTo P mode) (FP.rdiv cfg a b mode) (FP.rdiv cfg' a' b' mode) := by
  by_cases h0 : value b = 0
  · exact coarsens_err ((C10_rdiv_zero_iff hv' a' b' mode).2 (by rw [hb, h0]))
  · have h2 := C10_rdiv_directed hv' a' b' mode hm (by rwa [hb])
    rw [ha, hb] at h2
    exact coarsens_rounded hP hm (C10_rdiv_directed hv a b mode hm h0) h2

example := C117_rdiv (cfg := debugCfg) (cfg' := debugCfg) (by decide) (by decide) (P := 2) (P' := 3)
  (by decide) (a := (⟨157⟩ : FP .i64 2)) (a' := (⟨1570⟩ : FP .i64 3)) (b := ⟨251⟩) (b' := ⟨2510⟩)
  (by decide +kernel) (by decide +kernel) (mode := .ceil) (by decide)

theorem rdivInt_ok_directed {cfg : Cfg} {a r : FP L P} {n : BitVec L.bits} {mode : RoundMode}
    (hm : mode ≠ .nearest) (h : FP.rdivInt cfg a n mode = .ok r) :
    value r = roundTo P mode (value a / (n.toInt : ℚ)) := by
  have hb : n.toInt ≠ 0 := fun hz => by
    rw [(C12_rdivInt_zero_iff cfg a n mode).2 hz] at h; cases h
  have hmin : ¬ (a.inner.toInt = rawMin L ∧ n.toInt = -1) := fun ⟨k1, k2⟩ => by
    have := (C14_int_rdiv_min_false cfg a.inner n mode k1 k2).1
    unfold FP.rdivInt at h
    rw [this] at h; cases h
  exact ((C12_rdivInt_partial cfg a n mode hb hmin fun e => absurd e hm).ok_iff r).1 h

/-- C117: quotients by an integer. -/
theorem C117_rdivInt {cfg cfg' : Cfg} (hP : P ≤ P')
    {a : FP L P} {a' : FP L' P'} (ha : value a' = value a) {n : BitVec L.bits}
    {n' : BitVec L'.bits} (hn : n'.toInt = n.toInt) {mode : RoundMode} (hm : mode ≠ .nearest) :
    Coarsens (roundTo P mode) (FP.rdivInt cfg a n mode) (FP.rdivInt cfg' a' n' mode) := by
  by_cases h0 : n.toInt = 0
  · exact coarsens_err ((C12_rdivInt_zero_iff cfg' a' n' mode).2 (by rw [hn, h0]))
  have fine : ∀ y, FP.rdivInt cfg' a' n' mode = .ok y →
      value y = roundTo P' mode (value a / (n.toInt : ℚ)) := by
    intro y hy
    rw [← ha, ← hn]
    exact rdivInt_ok_directed hm hy
  refine ⟨fun x y hx hy => ?_, fun hL y hy => ?_⟩
  · rw [fine y hy, roundTo_roundTo hP hm]
    exact rdivInt_ok_directed hm hx
  · have hr := representable_coarser hL hP mode ⟨y, fine y hy⟩
    rw [roundTo_roundTo hP hm] at hr
    by_cases hmin : a.inner.toInt = rawMin L ∧ n.toInt = -1
    · exfalso
      have e : roundTo P mode (value a / (n.toInt : ℚ)) = ((half L : Int) : ℚ) / 10 ^ P := by
        have e1 : value a / (n.toInt : ℚ) = ((half L : Int) : ℚ) / 10 ^ P := by
          unfold value
          rw [hmin.1, hmin.2, rawMin_half]; push_cast; ring
        unfold roundTo
        rw [e1, div_mul_cancel₀ _ (ten_pow_ne P), round_int]
      rw [e, representable_iff, fits_half] at hr
      omega
    · obtain ⟨x, hx, _⟩ := (C12_rdivInt_partial cfg a n mode h0 hmin fun h => absurd h hm).1 hr
      exact ⟨x, hx⟩

example := C117_rdivInt (cfg := debugCfg) (cfg' := debugCfg) (P := 2) (P' := 3)
  (by decide) (a := (⟨157⟩ : FP .i64 2)) (a' := (⟨1570⟩ : FP .i64 3)) (by decide +kernel)
  (n := 7) (n' := 7) rfl (mode := .ceil) (by decide)

/-- C117: quotients of an integer. -/
theorem C117_intRdiv {cfg cfg' : Cfg} (hv : Valid cfg L P) (hv' : Valid cfg' L' P') (hP : P ≤ P')
    {n : BitVec L.bits} {n' : BitVec L'.bits} (hn : n'.toInt = n.toInt) {b : FP L P} {b' : FP L' P'}
    (hb : value b' = value b) {mode : RoundMode} (hm : mode ≠ .nearest) :
    Coarsens (roundTo P mode) (FP.intRdiv cfg n b mode) (FP.intRdiv cfg' n' b' mode) := by
  by_cases hr' : Representable L' P' (n'.toInt : ℚ)
  swap
  · exact coarsens_err (C13_intRdiv_overflow hv' n' b' mode hr')
  by_cases h0 : value b = 0
  · exact coarsens_err (C13_intRdiv_zero hv' n' b' mode hr' (by rw [hb, h0]))
  have h2 := C13_intRdiv_directed hv' n' b' mode hm hr' (by rwa [hb])
  rw [hb, hn] at h2
  by_cases hr : Representable L P (n.toInt : ℚ)
  · exact coarsens_rounded hP hm (C13_intRdiv_directed hv n b mode hm hr h0) h2
  · refine ⟨fun x y hx _ => ?_, fun hL y _ => ?_⟩
    · rw [C13_intRdiv_overflow hv n b mode hr] at hx; cases hx
    · exfalso
      rw [hn] at hr'
      have := representable_coarser hL hP .floor hr'
      apply hr
      have e : roundTo P .floor (n.toInt : ℚ) = n.toInt := by
        unfold roundTo
        rw [show (n.toInt : ℚ) * 10 ^ P = ((n.toInt * 10 ^ P : Int) : ℚ) by push_cast; ring, round_int]
        push_cast
        rw [mul_div_cancel_right₀ _ (ten_pow_ne P)]
      rwa [e] at this

example := C117_intRdiv (cfg := debugCfg) (cfg' := debugCfg) (by decide) (by decide) (P := 2) (P' := 3)
  (by decide) (n := (7 : BitVec (Layout.bits .i64))) (n' := (7 : BitVec (Layout.bits .i64))) rfl
  (b := (⟨251⟩ : FP .i64 2)) (b' := (⟨2510⟩ : FP .i64 3)) (by decide +kernel) (mode := .ceil) (by decide)

/-- C117: reciprocals. -/
theorem C117_recip {cfg cfg' : Cfg} (hv : Valid cfg L P) (hv' : Valid cfg' L' P') (hP : P ≤ P')
    {b : FP L P} {b' : FP L' P'} (hb : value b' = value b) {mode : RoundMode}
    (hm : mode ≠ .nearest) :
    Coarsens (roundTo P mode) (FP.recip cfg b mode) (FP.recip cfg' b' mode) := by
  by_cases h0 : value b = 0
  · exact coarsens_err ((C15_recip_zero_iff hv' b' mode).2 (by rw [hb, h0]))
  · have h2 := C15_recip_directed hv' b' mode hm (by rwa [hb])
    rw [hb] at h2
    exact coarsens_rounded hP hm (C15_recip_directed hv b mode hm h0) h2

example := C117_recip (cfg := debugCfg) (cfg' := debugCfg) (by decide) (by decide) (P := 2) (P' := 3)
  (by decide) (b := (⟨251⟩ : FP .i64 2)) (b' := (⟨2510⟩ : FP .i64 3)) (by decide +kernel)
  (mode := .ceil) (by decide)

/-- C117: half sums. -/
theorem C117_half_sum (cfg cfg' : Cfg) (hP : P ≤ P') {a b : FP L P} {a' b' : FP L' P'}
    (ha : value a' = value a) (hb : value b' = value b) {mode : RoundMode} (hm : mode ≠ .nearest) :
    Coarsens (roundTo P mode) (FP.halfSum cfg a b mode : Res ε _)
      (FP.halfSum cfg' a' b' mode : Res ε _) := by
  obtain ⟨x, e1, v1⟩ := C16_half_sum_directed (ε := ε) cfg a b mode hm
  obtain ⟨y, e2, v2⟩ := C16_half_sum_directed (ε := ε) cfg' a' b' mode hm
  rw [e1, e2]
  refine ⟨fun x' y' hx hy => ?_, fun _ _ _ => ⟨x, rfl⟩⟩
  cases hx; cases hy
  rw [v1, v2, ha, hb, roundTo_roundTo hP hm]

example := C117_half_sum (ε := Unit) debugCfg releaseCfg (P := 2) (P' := 3)
  (by decide) (a := (⟨157⟩ : FP .i64 2)) (a' := (⟨1570⟩ : FP .i64 3)) (b := ⟨250⟩) (b' := ⟨2500⟩)
  (by decide +kernel) (by decide +kernel) (mode := .ceil) (by decide)

theorem rsqrt_ok {cfg : Cfg} (hv : Valid cfg L P) {x r : FP L P} {m : RoundMode}
    (h : FP.rsqrt cfg x m = .ok r) : 0 ≤ value x ∧ IsRoundedSqrt P m (value x) (value r) := by
  have hn : 0 ≤ value x := by
    by_contra hc
    rw [(C22_rsqrt_domain hv x m).2 (not_le.1 hc)] at h; cases h
  obtain ⟨s, h1, h2⟩ := C22_rsqrt hv x hn m
  rw [h] at h1; cases h1; exact ⟨hn, h2⟩

/-- A multiple of `10^-P` not above the root is not above the root rounded down. -/
theorem le_rounded_sqrt {q s : ℚ} (h : IsRoundedSqrt P .floor q s) (n : Int)
    (hn : ((n : ℝ) / 10 ^ P) ≤ √(q : ℝ)) : (n : ℚ) / 10 ^ P ≤ s := by
  obtain ⟨⟨k, rfl⟩, _, h2⟩ := h
  have hp : (0 : ℝ) < 10 ^ P := by positivity
  have h3 := lt_of_le_of_lt hn h2
  push_cast at h3
  rw [← add_div, div_lt_div_iff_of_pos_right hp] at h3
  have h4 : n < k + 1 := by exact_mod_cast h3
  rw [div_le_div_iff_of_pos_right (ten_pow_pos P)]
  exact_mod_cast (by omega : n ≤ k)

theorem rounded_sqrt_le {q s : ℚ} (h : IsRoundedSqrt P .ceil q s) (n : Int)
    (hn : √(q : ℝ) ≤ ((n : ℝ) / 10 ^ P)) : s ≤ (n : ℚ) / 10 ^ P := by
  obtain ⟨⟨k, rfl⟩, h2, _⟩ := h
  have hp : (0 : ℝ) < 10 ^ P := by positivity
  have h3 := lt_of_lt_of_le h2 hn
  push_cast at h3
  rw [← sub_div, div_lt_div_iff_of_pos_right hp] at h3
  have h4 : k - 1 < n := by exact_mod_cast h3
  rw [div_le_div_iff_of_pos_right (ten_pow_pos P)]
  exact_mod_cast (by omega : k ≤ n)

/-- C117: square roots. -/
theorem C117_rsqrt {cfg cfg' : Cfg} (hv : Valid cfg L P) (hv' : Valid cfg' L' P') (hP : P ≤ P')
    {a : FP L P} {a' : FP L' P'} (ha : value a' = value a) {mode : RoundMode}
    (hm : mode ≠ .nearest) :
    Coarsens (roundTo P mode) (FP.rsqrt cfg a mode) (FP.rsqrt cfg' a' mode) := by
  refine ⟨fun x y hx hy => ?_, fun _ y hy => ?_⟩
  · obtain ⟨_, r1⟩ := rsqrt_ok hv hx
    obtain ⟨_, r2⟩ := rsqrt_ok hv' hy
    rw [ha] at r2
    have ex : value x = (x.inner.toInt : ℚ) / 10 ^ P := rfl
    cases mode with
    | nearest => exact absurd rfl hm
    | floor =>
      apply le_antisymm
      · rw [ex]
        refine (roundTo_floor_spec P _).2 _ ?_
        rw [finer_multiple hP]
        refine le_rounded_sqrt r2 _ ?_
        have := r1.2.1
        rw [ex, finer_multiple hP] at this
        exact_mod_cast this
      · have h1 := (roundTo_floor_spec P (value y)).1
        unfold roundTo at h1 ⊢
        refine le_rounded_sqrt r1 _ (le_trans ?_ r2.2.1)
        exact_mod_cast h1
    | ceil =>
      apply le_antisymm
      · have h1 := (roundTo_ceil_spec P (value y)).1
        unfold roundTo at h1 ⊢
        refine rounded_sqrt_le r1 _ (le_trans r2.2.2 ?_)
        exact_mod_cast h1
      · rw [ex]
        refine (roundTo_ceil_spec P _).2 _ ?_
        rw [finer_multiple hP]
        refine rounded_sqrt_le r2 _ ?_
        have := r1.2.2
        rw [ex, finer_multiple hP] at this
        exact_mod_cast this
  · have := (rsqrt_ok hv' hy).1
    rw [ha] at this
    obtain ⟨s, h1, _⟩ := C22_rsqrt hv a this mode
    exact ⟨s, h1⟩

/-- √2 -/
example : FP.rsqrt debugCfg (⟨200⟩ : FP .i64 2) .floor = .ok ⟨141⟩ ∧
    FP.rsqrt debugCfg (⟨2000000000⟩ : FP .i64 9) .floor = .ok ⟨1414213562⟩ := by decide +kernel
example := C117_rsqrt (cfg := debugCfg) (cfg' := debugCfg) (by decide) (by decide) (P := 2) (P' := 9)
  (by decide) (a := (⟨200⟩ : FP .i64 2)) (a' := (⟨2000000000⟩ : FP .i64 9)) (by decide +kernel)
  (mode := .floor) (by decide)

/-! ## The next power of ten -/

theorem isNext_finer (hP : P ≤ P') {q r : ℚ} (hq : 1 / 10 ^ P ≤ q) (h : IsNextPowerOfTen P q r) :
    IsNextPowerOfTen P' q r := by
  obtain ⟨d, rfl⟩ := Nat.exists_eq_add_of_le hP
  obtain ⟨⟨k, e⟩, h1, h2⟩ := h
  have hp := ten_pow_pos P
  have up (j : Nat) : (10 : ℚ) ^ (j + d) / 10 ^ (P + d) = 10 ^ j / 10 ^ P := by
    rw [pow_add, pow_add, mul_div_mul_right _ _ (ten_pow_ne d)]
  refine ⟨⟨k + d, by rw [up, e]⟩, h1, fun j hj => ?_⟩
  by_cases hjd : d ≤ j
  · obtain ⟨i, rfl⟩ := Nat.exists_eq_add_of_le' hjd
    rw [up] at hj ⊢
    exact h2 i hj
  · exfalso
    have h3 := le_trans hq hj
    rw [pow_add, div_le_div_iff₀ hp (by positivity), one_mul, mul_comm, mul_le_mul_iff_left₀ hp] at h3
    have h4 : (10 : ℚ) ^ j < 10 ^ d := pow_lt_pow_right₀ (by norm_num) (by omega)
    linarith

/-- C117: the next power of ten of a number other than zero does not depend on the number of digits.
(That of zero is the smallest power of ten, `10^-P`, by C21.) -/
theorem C117_next_power_of_ten (hP : P ≤ P') {a : FP L P} {a' : FP L' P'} (ha : value a' = value a)
    (h0 : value a ≠ 0) : Coarsens id (FP.nextPowerOfTen a) (FP.nextPowerOfTen a') := by
  have hp := ten_pow_pos P
  have h1 : 1 / 10 ^ P ≤ |value a| := by
    rw [Ne, value_eq_zero_iff] at h0
    unfold value
    rw [abs_div, abs_of_pos hp, div_le_div_iff_of_pos_right hp]
    exact_mod_cast Int.one_le_abs h0
  obtain ⟨r, hr, _⟩ := C21_next_exists P |value a|
  have hr' := isNext_finer hP h1 hr
  obtain ⟨k, e⟩ := hr.1
  rcases lt_or_ge (value a) 0 with hneg | hpos
  · rw [abs_of_neg hneg] at hr hr'
    have h2 := C21_next_power_neg a' (by rwa [ha]) r (by rwa [ha])
    refine coarsens_exact hP (z := -10 ^ k) ?_ (C21_next_power_neg a hneg r hr) h2
    rw [e]; push_cast; ring
  · rw [abs_of_nonneg hpos] at hr hr'
    have h2 := C21_next_power_nonneg a' (by rwa [ha]) r (by rwa [ha])
    refine coarsens_exact hP (z := 10 ^ k) ?_ (C21_next_power_nonneg a hpos r hr) h2
    rw [e]; push_cast; ring

example : FP.nextPowerOfTen (⟨-157⟩ : FP .i64 2) = .ok ⟨-1000⟩ ∧
    FP.nextPowerOfTen (⟨-1570⟩ : FP .i64 3) = .ok ⟨-10000⟩ := by decide +kernel
example := C117_next_power_of_ten (P := 2) (P' := 3) (by decide) (a := (⟨-157⟩ : FP .i64 2))
  (a' := (⟨-1570⟩ : FP .i64 3)) (by decide +kernel) (by decide +kernel)

/-! ## `Nearest`, and any mode -/

/-- C117: in every mode and build, the results with different numbers of digits differ by less than
the sum of the two units. -/
theorem C117_distance {cfg cfg' : Cfg} (hv : Valid cfg L P) (hv' : Valid cfg' L' P')
    {a b x : FP L P} {a' b' y : FP L' P'} (ha : value a' = value a) (hb : value b' = value b)
    {n : BitVec L.bits} {n' : BitVec L'.bits} (hn : n'.toInt = n.toInt) (mode mode' : RoundMode) :
    (FP.rmul cfg a b mode = .ok x → FP.rmul cfg' a' b' mode' = .ok y →
      |value x - value y| < 1 / 10 ^ P + 1 / 10 ^ P') ∧
    (FP.rdiv cfg a b mode = .ok x → FP.rdiv cfg' a' b' mode' = .ok y →
      |value x - value y| < 1 / 10 ^ P + 1 / 10 ^ P') ∧
    (FP.rdivInt cfg a n mode = .ok x → FP.rdivInt cfg' a' n' mode' = .ok y →
      |value x - value y| < 1 / 10 ^ P + 1 / 10 ^ P') ∧
    (FP.intRdiv cfg n b mode = .ok x → FP.intRdiv cfg' n' b' mode' = .ok y →
      |value x - value y| < 1 / 10 ^ P + 1 / 10 ^ P') ∧
    (FP.recip cfg b mode = .ok x → FP.recip cfg' b' mode' = .ok y →
      |value x - value y| < 1 / 10 ^ P + 1 / 10 ^ P') := by
  have tri {u v q s t : ℚ} (h1 : |u - q| < s) (h2 : |v - q| < t) : |u - v| < s + t := by
    rw [abs_lt] at *; constructor <;> linarith
  have c := C116_below_one_unit (ε := ArithErr) hv a b x n mode
  have c' := C116_below_one_unit (ε := ArithErr) hv' a' b' y n' mode'
  rw [ha, hb, hn] at c'
  exact ⟨fun h h' => tri (c.1 h) (c'.1 h'), fun h h' => tri (c.2.1 h) (c'.2.1 h'),
    fun h h' => tri (c.2.2.1 h) (c'.2.2.1 h'), fun h h' => tri (c.2.2.2.1 h) (c'.2.2.2.1 h'),
    fun h h' => tri (c.2.2.2.2.1 h) (c'.2.2.2.2.1 h')⟩

/-- 0.89 · 0.05 = 0.0445 -/
example := (C117_distance (cfg := debugCfg) (cfg' := debugCfg) (by decide) (by decide)
  (a := (⟨89⟩ : FP .i64 2)) (a' := (⟨890⟩ : FP .i64 3)) (b := ⟨5⟩) (b' := ⟨50⟩) (x := ⟨4⟩) (y := ⟨45⟩)
  (by decide +kernel) (by decide +kernel) (n := 3) (n' := 3) rfl .nearest .nearest).1
  (by decide +kernel) (by decide +kernel)

/-- C117: in builds with overflow checks, `Nearest` results with different numbers of digits differ by
at most the sum of the two half units. -/
theorem C117_nearest {cfg cfg' : Cfg} (hv : Valid cfg L P) (hv' : Valid cfg' L' P')
    (hc : cfg.overflowChecks = true) (hc' : cfg'.overflowChecks = true)
    {a b x : FP L P} {a' b' y : FP L' P'} (ha : value a' = value a) (hb : value b' = value b)
    {n : BitVec L.bits} {n' : BitVec L'.bits} (hn : n'.toInt = n.toInt) :
    (FP.rmul cfg a b .nearest = .ok x → FP.rmul cfg' a' b' .nearest = .ok y →
      |value x - value y| ≤ 1 / 2 / 10 ^ P + 1 / 2 / 10 ^ P') ∧
    (FP.rdiv cfg a b .nearest = .ok x → FP.rdiv cfg' a' b' .nearest = .ok y →
      |value x - value y| ≤ 1 / 2 / 10 ^ P + 1 / 2 / 10 ^ P') ∧
    (FP.rdivInt cfg a n .nearest = .ok x → FP.rdivInt cfg' a' n' .nearest = .ok y →
      |value x - value y| ≤ 1 / 2 / 10 ^ P + 1 / 2 / 10 ^ P') ∧
    (FP.intRdiv cfg n b .nearest = .ok x → FP.intRdiv cfg' n' b' .nearest = .ok y →
      |value x - value y| ≤ 1 / 2 / 10 ^ P + 1 / 2 / 10 ^ P') ∧
    (FP.recip cfg b .nearest = .ok x → FP.recip cfg' b' .nearest = .ok y →
      |value x - value y| ≤ 1 / 2 / 10 ^ P + 1 / 2 / 10 ^ P') := by
  have tri {u v q s t : ℚ} (h1 : |u - q| ≤ s) (h2 : |v - q| ≤ t) : |u - v| ≤ s + t := by
    rw [abs_le] at *; constructor <;> linarith
  have c := C116_half_unit_partial hv hc a b x n
  have c' := C116_half_unit_partial hv' hc' a' b' y n'
  rw [ha, hb, hn] at c'
  exact ⟨fun h h' => tri (c.1 h) (c'.1 h'), fun h h' => tri (c.2.1 h) (c'.2.1 h'),
    fun h h' => tri (c.2.2.1 h) (c'.2.2.1 h'), fun h h' => tri (c.2.2.2.1 h) (c'.2.2.2.1 h'),
    fun h h' => tri (c.2.2.2.2 h) (c'.2.2.2.2 h')⟩

example := (C117_nearest (cfg := debugCfg) (cfg' := debugCfg) (by decide) (by decide) rfl rfl
  (a := (⟨89⟩ : FP .i64 2)) (a' := (⟨890⟩ : FP .i64 3)) (b := ⟨5⟩) (b' := ⟨50⟩) (x := ⟨4⟩) (y := ⟨45⟩)
  (by decide +kernel) (by decide +kernel) (n := 3) (n' := 3) rfl).1
  (by decide +kernel) (by decide +kernel)

/-- Why `Nearest` is left out of `C117_rmul`: 0.89 · 0.05 = 0.0445 is 0.04 with two digits, but 0.045
with three digits, which rounds to 0.05. -/
theorem C117_nearest_outside_domain :
    FP.rmul debugCfg (⟨89⟩ : FP .i64 2) ⟨5⟩ .nearest = .ok ⟨4⟩ ∧
    FP.rmul debugCfg (⟨890⟩ : FP .i64 3) ⟨50⟩ .nearest = .ok ⟨45⟩ ∧
    roundTo 2 .nearest (value (⟨45⟩ : FP .i64 3)) = 5 / 100 := by
  refine ⟨by decide +kernel, by decide +kernel, ?_⟩
  rw [roundTo_div .nearest _ (n := 45) (d := 10) (by norm_num)
    (by rw [value_eq _ 45 (by decide)]; norm_num)]
  have : roundDiv .nearest 45 10 = 5 := by decide
  rw [this]; norm_num

/-! ## Expressions -/

/-- The same expression, over numbers with `P` and with `P'` digits. -/
inductive Term.Same : Term L P → Term L' P' → Prop
  | lit {x : FP L P} {y : FP L' P'} (h : value y = value x) : Same (.lit x) (.lit y)
  | add {s t : Term L P} {s' t' : Term L' P'} : Same s s' → Same t t' → Same (.add s t) (.add s' t')
  | sub {s t : Term L P} {s' t' : Term L' P'} : Same s s' → Same t t' → Same (.sub s t) (.sub s' t')
  | mul {s t : Term L P} {s' t' : Term L' P'} : Same s s' → Same t t' → Same (.mul s t) (.mul s' t')
  | div {s t : Term L P} {s' t' : Term L' P'} : Same s s' → Same t t' → Same (.div s t) (.div s' t')
  | sqrt {s : Term L P} {s' : Term L' P'} : Same s s' → Same (.sqrt s) (.sqrt s')
  | half {s t : Term L P} {s' t' : Term L' P'} : Same s s' → Same t t' → Same (.half s t) (.half s' t')

/-- The bounds with more digits lie between those with fewer digits. -/
def Within (i : FP L P × FP L P) (j : FP L' P' × FP L' P') : Prop :=
  value i.1 ≤ value j.1 ∧ value j.1 ≤ value j.2 ∧ value j.2 ≤ value i.2

theorem smaller_cases (a b : FP L P) : smaller a b = a ∨ smaller a b = b := by
  unfold smaller; split <;> simp
theorem larger_cases (a b : FP L P) : larger a b = a ∨ larger a b = b := by
  unfold larger; split <;> simp
theorem le_smaller {a b : FP L P} {c : ℚ} (ha : c ≤ value a) (hb : c ≤ value b) :
    c ≤ value (smaller a b) := by
  rcases smaller_cases a b with h | h <;> rw [h] <;> assumption
theorem larger_le {a b : FP L P} {c : ℚ} (ha : value a ≤ c) (hb : value b ≤ c) :
    value (larger a b) ≤ c := by
  rcases larger_cases a b with h | h <;> rw [h] <;> assumption

/-- A number with fewer digits below `q` is below `q` rounded down to more digits. -/
theorem le_roundTo_floor (hP : P ≤ P') (x : FP L P) {q : ℚ} (h : value x ≤ q) :
    value x ≤ roundTo P' .floor q := by
  have ex : value x = (x.inner.toInt : ℚ) / 10 ^ P := rfl
  rw [ex, finer_multiple hP] at h ⊢
  exact (roundTo_floor_spec P' q).2 _ h

theorem roundTo_ceil_le (hP : P ≤ P') (x : FP L P) {q : ℚ} (h : q ≤ value x) :
    roundTo P' .ceil q ≤ value x := by
  have ex : value x = (x.inner.toInt : ℚ) / 10 ^ P := rfl
  rw [ex, finer_multiple hP] at h ⊢
  exact (roundTo_ceil_spec P' q).2 _ h

theorem rmul_directed_value {cfg : Cfg} (hv : Valid cfg L P) {a b r : FP L P} {mode : RoundMode}
    (hm : mode ≠ .nearest) (h : FP.rmul cfg a b mode = .ok r) :
    value r = roundTo P mode (value a * value b) := rmul_checked_value hv (.inl hm) h

theorem rdiv_directed_value {cfg : Cfg} (hv : Valid cfg L P) {a b r : FP L P} {mode : RoundMode}
    (hm : mode ≠ .nearest) (h : FP.rdiv cfg a b mode = .ok r) :
    value r = roundTo P mode (value a / value b) := (rdiv_checked_value hv (.inl hm) h).2

/-- The two halves of `Within` as memberships of both ends. -/
theorem within_ends {i : FP L P × FP L P} {j : FP L' P' × FP L' P'} (h : Within i j) :
    ((value i.1 : ℝ) ≤ value j.1 ∧ (value j.1 : ℝ) ≤ value i.2) ∧
    ((value i.1 : ℝ) ≤ value j.2 ∧ (value j.2 : ℝ) ≤ value i.2) := by
  obtain ⟨h1, h2, h3⟩ := h
  refine ⟨⟨?_, ?_⟩, ?_, ?_⟩
  · exact_mod_cast h1
  · exact_mod_cast le_trans h2 h3
  · exact_mod_cast le_trans h1 h2
  · exact_mod_cast h3

/-- A quotient of numbers from two intervals, the second of positive numbers. -/
theorem le_interval_div {a c d x y m : ℝ} (hx : a ≤ x) (hc : 0 < c) (hy : c ≤ y ∧ y ≤ d)
    (h1 : m ≤ a / c) (h2 : m ≤ a / d) : m ≤ x / y := by
  have hy0 : 0 < y := lt_of_lt_of_le hc hy.1
  refine le_trans ?_ (div_le_div_of_nonneg_right hx hy0.le)
  rcases le_total 0 a with hz | hz
  · exact le_trans h2 (div_le_div_of_nonneg_left hz hy0 hy.2)
  · refine le_trans h1 ?_
    rw [div_le_div_iff₀ hc hy0]
    exact mul_le_mul_of_nonpos_left hy.1 hz

theorem interval_div_le {b c d x y m : ℝ} (hx : x ≤ b) (hc : 0 < c) (hy : c ≤ y ∧ y ≤ d)
    (h1 : b / c ≤ m) (h2 : b / d ≤ m) : x / y ≤ m := by
  have := le_interval_div (a := -b) (x := -x) (m := -m) (neg_le_neg hx) hc hy
    (by rw [neg_div]; linarith) (by rw [neg_div]; linarith)
  rw [neg_div] at this
  linarith

/-- C117: for every expression, however deep: the interval computed with more digits lies within the
interval computed with fewer digits. -/
theorem C117_interval {cfg cfg' : Cfg} (hv : Valid cfg L P) (hv' : Valid cfg' L' P') (hP : P ≤ P')
    {t : Term L P} {t' : Term L' P'} (ht : Term.Same t t') (i : FP L P × FP L P)
    (i' : FP L' P' × FP L' P') (h : t.bounds cfg = .ok i) (h' : t'.bounds cfg' = .ok i') :
    Within i i' := by
  have ordered : value i'.1 ≤ value i'.2 := by
    have := C69_interval hv' t' i' h'
    exact_mod_cast le_trans this.1 this.2
  induction ht generalizing i i' with
  | lit hx => cases h; cases h'; exact ⟨hx.ge, le_refl _, hx.le⟩
  | @add s t s' t' h1 h2 hs ht =>
    obtain ⟨i1, e1, h⟩ := bind_ok_of h
    obtain ⟨i2, e2, h⟩ := bind_ok_of h
    obtain ⟨lo, e3, h⟩ := bind_ok_of h
    obtain ⟨hi, e4, h⟩ := bind_ok_of h
    cases h
    obtain ⟨j1, f1, h'⟩ := bind_ok_of h'
    obtain ⟨j2, f2, h'⟩ := bind_ok_of h'
    obtain ⟨lo', f3, h'⟩ := bind_ok_of h'
    obtain ⟨hi', f4, h'⟩ := bind_ok_of h'
    cases h'
    have o1 := C69_interval hv' s' j1 f1
    have o2 := C69_interval hv' t' j2 f2
    have w1 := hs i1 j1 e1 f1 (by exact_mod_cast le_trans o1.1 o1.2)
    have w2 := ht i2 j2 e2 f2 (by exact_mod_cast le_trans o2.1 o2.2)
    refine ⟨?_, ordered, ?_⟩
    · rw [C01_cadd_ok _ _ _ e3, C01_cadd_ok _ _ _ f3]; exact add_le_add w1.1 w2.1
    · rw [C01_cadd_ok _ _ _ e4, C01_cadd_ok _ _ _ f4]; exact add_le_add w1.2.2 w2.2.2
  | @sub s t s' t' h1 h2 hs ht =>
    obtain ⟨i1, e1, h⟩ := bind_ok_of h
    obtain ⟨i2, e2, h⟩ := bind_ok_of h
    obtain ⟨lo, e3, h⟩ := bind_ok_of h
    obtain ⟨hi, e4, h⟩ := bind_ok_of h
    cases h
    obtain ⟨j1, f1, h'⟩ := bind_ok_of h'
    obtain ⟨j2, f2, h'⟩ := bind_ok_of h'
    obtain ⟨lo', f3, h'⟩ := bind_ok_of h'
    obtain ⟨hi', f4, h'⟩ := bind_ok_of h'
    cases h'
    have o1 := C69_interval hv' s' j1 f1
    have o2 := C69_interval hv' t' j2 f2
    have w1 := hs i1 j1 e1 f1 (by exact_mod_cast le_trans o1.1 o1.2)
    have w2 := ht i2 j2 e2 f2 (by exact_mod_cast le_trans o2.1 o2.2)
    refine ⟨?_, ordered, ?_⟩
    · rw [C02_csub_ok _ _ _ e3, C02_csub_ok _ _ _ f3]; exact sub_le_sub w1.1 w2.2.2
    · rw [C02_csub_ok _ _ _ e4, C02_csub_ok _ _ _ f4]; exact sub_le_sub w1.2.2 w2.1
  | @mul s t s' t' h1 h2 hs ht =>
    obtain ⟨i1, e1, h⟩ := bind_ok_of h
    obtain ⟨i2, e2, h⟩ := bind_ok_of h
    obtain ⟨l1, a1, h⟩ := bind_ok_of h
    obtain ⟨l2, a2, h⟩ := bind_ok_of h
    obtain ⟨l3, a3, h⟩ := bind_ok_of h
    obtain ⟨l4, a4, h⟩ := bind_ok_of h
    obtain ⟨u1, b1, h⟩ := bind_ok_of h
    obtain ⟨u2, b2, h⟩ := bind_ok_of h
    obtain ⟨u3, b3, h⟩ := bind_ok_of h
    obtain ⟨u4, b4, h⟩ := bind_ok_of h
    cases h
    obtain ⟨j1, f1, h'⟩ := bind_ok_of h'
    obtain ⟨j2, f2, h'⟩ := bind_ok_of h'
    obtain ⟨k1, c1, h'⟩ := bind_ok_of h'
    obtain ⟨k2, c2, h'⟩ := bind_ok_of h'
    obtain ⟨k3, c3, h'⟩ := bind_ok_of h'
    obtain ⟨k4, c4, h'⟩ := bind_ok_of h'
    obtain ⟨v1, d1, h'⟩ := bind_ok_of h'
    obtain ⟨v2, d2, h'⟩ := bind_ok_of h'
    obtain ⟨v3, d3, h'⟩ := bind_ok_of h'
    obtain ⟨v4, d4, h'⟩ := bind_ok_of h'
    cases h'
    have o1 := C69_interval hv' s' j1 f1
    have o2 := C69_interval hv' t' j2 f2
    have w1 := within_ends (hs i1 j1 e1 f1 (by exact_mod_cast le_trans o1.1 o1.2))
    have w2 := within_ends (ht i2 j2 e2 f2 (by exact_mod_cast le_trans o2.1 o2.2))
    have q := smaller_le (smaller l1 l2) (smaller l3 l4)
    have q1 := smaller_le l1 l2
    have q2 := smaller_le l3 l4
    have r := le_larger (larger u1 u2) (larger u3 u4)
    have r1 := le_larger u1 u2
    have r2 := le_larger u3 u4
    set m := smaller (smaller l1 l2) (smaller l3 l4)
    set M := larger (larger u1 u2) (larger u3 u4)
    have low : ∀ x y : ℚ, ((value i1.1 : ℝ) ≤ x ∧ (x : ℝ) ≤ value i1.2) →
        ((value i2.1 : ℝ) ≤ y ∧ (y : ℝ) ≤ value i2.2) → value m ≤ x * y := by
      intro x y hx hy
      have : (value m : ℝ) ≤ (x : ℝ) * y := by
        refine le_interval_mul hx hy ?_ ?_ ?_ ?_
        · exact le_trans (by exact_mod_cast le_trans q.1 q1.1) (rmul_floor_le hv a1)
        · exact le_trans (by exact_mod_cast le_trans q.1 q1.2) (rmul_floor_le hv a2)
        · exact le_trans (by exact_mod_cast le_trans q.2 q2.1) (rmul_floor_le hv a3)
        · exact le_trans (by exact_mod_cast le_trans q.2 q2.2) (rmul_floor_le hv a4)
      exact_mod_cast this
    have high : ∀ x y : ℚ, ((value i1.1 : ℝ) ≤ x ∧ (x : ℝ) ≤ value i1.2) →
        ((value i2.1 : ℝ) ≤ y ∧ (y : ℝ) ≤ value i2.2) → x * y ≤ value M := by
      intro x y hx hy
      have : (x : ℝ) * y ≤ (value M : ℝ) := by
        refine interval_mul_le hx hy ?_ ?_ ?_ ?_
        · exact le_trans (le_rmul_ceil hv b1) (by exact_mod_cast le_trans r1.1 r.1)
        · exact le_trans (le_rmul_ceil hv b2) (by exact_mod_cast le_trans r1.2 r.1)
        · exact le_trans (le_rmul_ceil hv b3) (by exact_mod_cast le_trans r2.1 r.2)
        · exact le_trans (le_rmul_ceil hv b4) (by exact_mod_cast le_trans r2.2 r.2)
      exact_mod_cast this
    have fl {x y z : FP L' P'} (hz : FP.rmul cfg' x y .floor = .ok z) (hm : value m ≤ value x * value y) :
        value m ≤ value z := by
      rw [rmul_directed_value hv' (by decide) hz]; exact le_roundTo_floor hP m hm
    have ce {x y z : FP L' P'} (hz : FP.rmul cfg' x y .ceil = .ok z) (hm : value x * value y ≤ value M) :
        value z ≤ value M := by
      rw [rmul_directed_value hv' (by decide) hz]; exact roundTo_ceil_le hP M hm
    refine ⟨?_, ordered, ?_⟩
    · exact le_smaller
        (le_smaller (fl c1 (low _ _ w1.1 w2.1)) (fl c2 (low _ _ w1.1 w2.2)))
        (le_smaller (fl c3 (low _ _ w1.2 w2.1)) (fl c4 (low _ _ w1.2 w2.2)))
    · exact larger_le
        (larger_le (ce d1 (high _ _ w1.1 w2.1)) (ce d2 (high _ _ w1.1 w2.2)))
        (larger_le (ce d3 (high _ _ w1.2 w2.1)) (ce d4 (high _ _ w1.2 w2.2)))
  | @div s t s' t' h1 h2 hs ht =>
    obtain ⟨i1, e1, h⟩ := bind_ok_of h
    obtain ⟨i2, e2, h⟩ := bind_ok_of h
    split at h
    swap
    · cases h
    rename_i hpos
    rw [C54_cmp, compare_lt_iff_lt, C52_zero] at hpos
    obtain ⟨l1, a1, h⟩ := bind_ok_of h
    obtain ⟨l2, a2, h⟩ := bind_ok_of h
    obtain ⟨u1, b1, h⟩ := bind_ok_of h
    obtain ⟨u2, b2, h⟩ := bind_ok_of h
    cases h
    obtain ⟨j1, f1, h'⟩ := bind_ok_of h'
    obtain ⟨j2, f2, h'⟩ := bind_ok_of h'
    split at h'
    swap
    · cases h'
    obtain ⟨k1, c1, h'⟩ := bind_ok_of h'
    obtain ⟨k2, c2, h'⟩ := bind_ok_of h'
    obtain ⟨v1, d1, h'⟩ := bind_ok_of h'
    obtain ⟨v2, d2, h'⟩ := bind_ok_of h'
    cases h'
    have o1 := C69_interval hv' s' j1 f1
    have o2 := C69_interval hv' t' j2 f2
    have w1 := within_ends (hs i1 j1 e1 f1 (by exact_mod_cast le_trans o1.1 o1.2))
    have w2 := within_ends (ht i2 j2 e2 f2 (by exact_mod_cast le_trans o2.1 o2.2))
    have hc : (0 : ℝ) < (value i2.1 : ℝ) := by exact_mod_cast hpos
    have q := smaller_le l1 l2
    have r := le_larger u1 u2
    set m := smaller l1 l2
    set M := larger u1 u2
    have low : ∀ x y : ℚ, (value i1.1 : ℝ) ≤ x →
        ((value i2.1 : ℝ) ≤ y ∧ (y : ℝ) ≤ value i2.2) → value m ≤ x / y := by
      intro x y hx hy
      have : (value m : ℝ) ≤ (x : ℝ) / y :=
        le_interval_div hx hc hy
          (le_trans (by exact_mod_cast q.1) (rdiv_floor_le hv a1))
          (le_trans (by exact_mod_cast q.2) (rdiv_floor_le hv a2))
      exact_mod_cast this
    have high : ∀ x y : ℚ, (x : ℝ) ≤ value i1.2 →
        ((value i2.1 : ℝ) ≤ y ∧ (y : ℝ) ≤ value i2.2) → x / y ≤ value M := by
      intro x y hx hy
      have : (x : ℝ) / y ≤ (value M : ℝ) :=
        interval_div_le hx hc hy
          (le_trans (le_rdiv_ceil hv b1) (by exact_mod_cast r.1))
          (le_trans (le_rdiv_ceil hv b2) (by exact_mod_cast r.2))
      exact_mod_cast this
    have fl {x y z : FP L' P'} (hz : FP.rdiv cfg' x y .floor = .ok z) (hm : value m ≤ value x / value y) :
        value m ≤ value z := by
      rw [rdiv_directed_value hv' (by decide) hz]; exact le_roundTo_floor hP m hm
    have ce {x y z : FP L' P'} (hz : FP.rdiv cfg' x y .ceil = .ok z) (hm : value x / value y ≤ value M) :
        value z ≤ value M := by
      rw [rdiv_directed_value hv' (by decide) hz]; exact roundTo_ceil_le hP M hm
    refine ⟨?_, ordered, ?_⟩
    · exact le_smaller (fl c1 (low _ _ w1.1.1 w2.1)) (fl c2 (low _ _ w1.1.1 w2.2))
    · exact larger_le (ce d1 (high _ _ w1.2.2 w2.1)) (ce d2 (high _ _ w1.2.2 w2.2))
  | @sqrt s s' h1 hs =>
    obtain ⟨i1, e1, h⟩ := bind_ok_of h
    obtain ⟨lo, a1, h⟩ := bind_ok_of h
    obtain ⟨hi, a2, h⟩ := bind_ok_of h
    cases h
    obtain ⟨j1, f1, h'⟩ := bind_ok_of h'
    obtain ⟨lo', c1, h'⟩ := bind_ok_of h'
    obtain ⟨hi', c2, h'⟩ := bind_ok_of h'
    cases h'
    have o1 := C69_interval hv' s' j1 f1
    have w1 := within_ends (hs i1 j1 e1 f1 (by exact_mod_cast le_trans o1.1 o1.2))
    have elo : value lo = (lo.inner.toInt : ℚ) / 10 ^ P := rfl
    have ehi : value hi = (hi.inner.toInt : ℚ) / 10 ^ P := rfl
    refine ⟨?_, ordered, ?_⟩
    · have k := le_trans (rsqrt_ok hv a1).2.2.1 (Real.sqrt_le_sqrt w1.1.1)
      show value lo ≤ value lo'
      rw [elo, finer_multiple hP] at k ⊢
      exact le_rounded_sqrt (rsqrt_ok hv' c1).2 _ (by exact_mod_cast k)
    · have k := le_trans (Real.sqrt_le_sqrt w1.2.2) (rsqrt_ok hv a2).2.2.2
      show value hi' ≤ value hi
      rw [ehi, finer_multiple hP] at k ⊢
      exact rounded_sqrt_le (rsqrt_ok hv' c2).2 _ (by exact_mod_cast k)
  | @half s t s' t' h1 h2 hs ht =>
    obtain ⟨i1, e1, h⟩ := bind_ok_of h
    obtain ⟨i2, e2, h⟩ := bind_ok_of h
    obtain ⟨lo, a1, h⟩ := bind_ok_of h
    obtain ⟨hi, a2, h⟩ := bind_ok_of h
    cases h
    obtain ⟨j1, f1, h'⟩ := bind_ok_of h'
    obtain ⟨j2, f2, h'⟩ := bind_ok_of h'
    obtain ⟨lo', c1, h'⟩ := bind_ok_of h'
    obtain ⟨hi', c2, h'⟩ := bind_ok_of h'
    cases h'
    have o1 := C69_interval hv' s' j1 f1
    have o2 := C69_interval hv' t' j2 f2
    have w1 := hs i1 j1 e1 f1 (by exact_mod_cast le_trans o1.1 o1.2)
    have w2 := ht i2 j2 e2 f2 (by exact_mod_cast le_trans o2.1 o2.2)
    obtain ⟨x1, y1, z1⟩ := C16_half_sum_directed (ε := ArithErr) cfg i1.1 i2.1 .floor (by simp)
    obtain ⟨x2, y2, z2⟩ := C16_half_sum_directed (ε := ArithErr) cfg i1.2 i2.2 .ceil (by simp)
    obtain ⟨x3, y3, z3⟩ := C16_half_sum_directed (ε := ArithErr) cfg' j1.1 j2.1 .floor (by simp)
    obtain ⟨x4, y4, z4⟩ := C16_half_sum_directed (ε := ArithErr) cfg' j1.2 j2.2 .ceil (by simp)
    rw [a1] at y1; cases y1
    rw [a2] at y2; cases y2
    rw [c1] at y3; cases y3
    rw [c2] at y4; cases y4
    refine ⟨?_, ordered, ?_⟩
    · show value lo ≤ value lo'
      rw [z3]
      refine le_roundTo_floor hP lo ?_
      rw [z1]
      refine le_trans (roundTo_floor_spec P _).1 ?_
      have := add_le_add w1.1 w2.1
      linarith
    · show value hi' ≤ value hi
      rw [z4]
      refine roundTo_ceil_le hP hi ?_
      rw [z2]
      refine le_trans ?_ (roundTo_ceil_spec P _).1
      have := add_le_add w1.2.2 w2.2.2
      linarith

/-- (√2 · (0.5 − 1.25) + 3) / 0.7 = 2.7704… -/
example : Term.bounds debugCfg (.div (.add (.mul (.sqrt (.lit (⟨200⟩ : FP .i64 2)))
      (.sub (.lit ⟨50⟩) (.lit ⟨125⟩))) (.lit ⟨300⟩)) (.lit ⟨70⟩)) = .ok (⟨275⟩, ⟨279⟩) ∧
    Term.bounds debugCfg (.div (.add (.mul (.sqrt (.lit (⟨2000⟩ : FP .i64 3)))
      (.sub (.lit ⟨500⟩) (.lit ⟨1250⟩))) (.lit ⟨3000⟩)) (.lit ⟨700⟩)) = .ok (⟨2768⟩, ⟨2772⟩) := by
  decide +kernel
example := C117_interval (cfg := debugCfg) (cfg' := debugCfg) (L := .i64) (L' := .i64) (P := 2)
  (P' := 3) (by decide) (by decide) (by decide)
  (t := .div (.lit ⟨100⟩) (.sqrt (.lit ⟨200⟩))) (t' := .div (.lit ⟨1000⟩) (.sqrt (.lit ⟨2000⟩)))
  (.div (.lit (by decide +kernel)) (.sqrt (.lit (by decide +kernel)))) (⟨70⟩, ⟨71⟩) (⟨706⟩, ⟨708⟩)
  (by decide +kernel) (by decide +kernel)

end Fixnum
