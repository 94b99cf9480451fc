import Verif.Props.Order
import Verif.Props.Decimal
import Verif.Props.Laws

/-! # Property C114: the other operations keep the order

C56 is about `rmul`, `rdiv` (in the dividend), `rsqrt` and `integral`; C62, C63 and C72 are about the
conversions.  Here: `half_sum`, `floor`, `ceil`, `round`, `round_towards_zero_by`,
`next_power_of_ten`, the divisor of `rdiv`, `recip`, a negative factor, the saturating operations and
the conversions from integers and decimals. -/

namespace Fixnum

open Res Spec

variable {L : Layout} {P : Nat} {ε : Type}

/-! ## `half_sum` -/

/-- Half of an integer, rounded up, is at most half of any greater integer, rounded to nearest. -/
theorem half_ceil_le_nearest {s t : Int} (h : s < t) :
    Spec.round .ceil ((s : ℚ) / 2) ≤ Spec.round .nearest ((t : ℚ) / 2) := by
  have h1 := (round_ceil_spec ((s : ℚ) / 2)).1
  have h2 : 2 * Spec.round .ceil ((s : ℚ) / 2) < s + 2 := by
    have : (2 * Spec.round .ceil ((s : ℚ) / 2) : ℚ) < s + 2 := by linarith
    exact_mod_cast this
  have h3 : ((Spec.round .ceil ((s : ℚ) / 2) : Int) : ℚ) ≤ (t : ℚ) / 2 := by
    rw [le_div_iff₀ (by norm_num)]
    exact_mod_cast (by omega : Spec.round .ceil ((s : ℚ) / 2) * 2 ≤ t)
  have h4 := round_mono .nearest h3
  rwa [round_int] at h4

/-- C114: `half_sum` is monotone in both arguments, in every mode and build, for all numbers; also
across the change in the treatment of ties (C17). -/
theorem C114_half_sum (cfg : Cfg) (a b a' b' r r' : FP L P) (mode : RoundMode)
    (ha : value a ≤ value a') (hb : value b ≤ value b')
    (h : (FP.halfSum cfg a b mode : Res ε _) = .ok r)
    (h' : (FP.halfSum cfg a' b' mode : Res ε _) = .ok r') : value r ≤ value r' := by
  have hs : (value a + value b) / 2 ≤ (value a' + value b') / 2 := by linarith
  by_cases hm : mode = .nearest
  · subst hm
    by_cases hn : value a < 0 ∧ value b < 0
    · obtain ⟨s, e, v⟩ := C17_half_sum_negative (ε := ε) cfg a b hn.1 hn.2
      rw [e] at h; cases h
      by_cases hn' : value a' < 0 ∧ value b' < 0
      · obtain ⟨s', e', v'⟩ := C17_half_sum_negative (ε := ε) cfg a' b' hn'.1 hn'.2
        rw [e'] at h'; cases h'
        rw [v, v']; exact roundTo_mono P .ceil hs
      · obtain ⟨s', e', v'⟩ := C17_half_sum_ties_partial (ε := ε) cfg a' b' hn'
        rw [e'] at h'; cases h'
        rw [v, v']
        have hp := ten_pow_pos P
        have key : a.inner.toInt + b.inner.toInt < a'.inner.toInt + b'.inner.toInt := by
          have lt : value a + value b < value a' + value b' := by
            rcases not_and_or.1 hn' with k | k
            · linarith [hn.1]
            · linarith [hn.2]
          unfold value at lt
          rw [← add_div, ← add_div, div_lt_div_iff_of_pos_right hp] at lt
          exact_mod_cast lt
        have c := half_ceil_le_nearest key
        unfold roundTo
        rw [div_le_div_iff_of_pos_right hp]
        have e1 : (value a + value b) / 2 * 10 ^ P =
            ((a.inner.toInt + b.inner.toInt : Int) : ℚ) / 2 := by
          unfold value; push_cast; field_simp
        have e2 : (value a' + value b') / 2 * 10 ^ P =
            ((a'.inner.toInt + b'.inner.toInt : Int) : ℚ) / 2 := by
          unfold value; push_cast; field_simp
        rw [e1, e2]
        exact_mod_cast c
    · have hn' : ¬ (value a' < 0 ∧ value b' < 0) := fun k => hn ⟨by linarith [k.1], by linarith [k.2]⟩
      obtain ⟨s, e, v⟩ := C17_half_sum_ties_partial (ε := ε) cfg a b hn
      obtain ⟨s', e', v'⟩ := C17_half_sum_ties_partial (ε := ε) cfg a' b' hn'
      rw [e] at h; cases h
      rw [e'] at h'; cases h'
      rw [v, v']; exact roundTo_mono P .nearest hs
  · obtain ⟨s, e, v⟩ := C16_half_sum_directed (ε := ε) cfg a b mode hm
    obtain ⟨s', e', v'⟩ := C16_half_sum_directed (ε := ε) cfg a' b' mode hm
    rw [e] at h; cases h
    rw [e'] at h'; cases h'
    rw [v, v']; exact roundTo_mono P mode hs

-- from two negative operands (ties upwards) to operands of both signs (ties away from zero)
example := C114_half_sum (ε := Unit) debugCfg (⟨-4⟩ : FP .i64 9) ⟨-1⟩ ⟨-3⟩ ⟨0⟩ ⟨-2⟩ ⟨-2⟩ .nearest
  (by decide +kernel) (by decide +kernel) (by decide +kernel) (by decide +kernel)

/-! ## `floor`, `ceil`, `round` -/

theorem representable_int_ge {z : Int} (h : Representable L P (z : ℚ)) :
    (⌈minValue L P⌉ : ℚ) ≤ z := by
  obtain ⟨x, hx⟩ := h
  have := (C52_bounds x).1
  rw [C52_bounds_value.1, hx] at this
  exact_mod_cast Int.ceil_le.2 this

theorem exactOrPanic_representable {r : Res ε (FP L P)} {q : ℚ} {c : FP L P} (h : ExactOrPanic r q)
    (hr : r = .ok c) : Representable L P q := ⟨c, exactOrPanic_ok h hr⟩

theorem min_of_le {a b : FP L P} (h : value a ≤ value b) (hb : value b = minValue L P) : a = b := by
  apply value_inj
  have := (C52_bounds a).1
  rw [C52_bounds_value.1] at this
  exact le_antisymm h (by rw [hb]; exact this)

theorem eq_min {a : FP L P} (h : value a = minValue L P) : a = FP.min :=
  value_inj (h.trans C52_bounds_value.1.symm)

/-- C114: `floor` and `ceil` are monotone, in every build and for all numbers for which they return
(even for `MIN`, where they give a wrong number without overflow checks). -/
theorem C114_floor_ceil {cfg : Cfg} (hv : Valid cfg L P) (a b r s : FP L P)
    (hab : value a ≤ value b) :
    ((FP.floor cfg a : Res ε _) = .ok r → (FP.floor cfg b : Res ε _) = .ok s → value r ≤ value s) ∧
    ((FP.ceil cfg a : Res ε _) = .ok r → (FP.ceil cfg b : Res ε _) = .ok s → value r ≤ value s) := by
  by_cases hb : value b = minValue L P
  · obtain rfl := min_of_le hab hb
    exact ⟨fun h h' => by rw [h] at h'; cases h'; exact le_refl _,
      fun h h' => by rw [h] at h'; cases h'; exact le_refl _⟩
  · by_cases ha : value a = minValue L P
    · obtain rfl := eq_min ha
      cases hc : cfg.overflowChecks
      · obtain ⟨m, em, e1, e2, -⟩ := C19_min_wrapped (ε := ε) (P := P) hv hc
        refine ⟨fun h h' => ?_, fun h h' => ?_⟩
        · rw [e1] at h; cases h
          rw [em, exactOrPanic_ok (C19_floor hv b hb) h']
          exact representable_int_ge (exactOrPanic_representable (C19_floor hv b hb) h')
        · rw [e2] at h; cases h
          rw [em, exactOrPanic_ok (C19_ceil hv b hb) h']
          exact representable_int_ge (exactOrPanic_representable (C19_ceil hv b hb) h')
      · obtain ⟨e1, e2⟩ := C19_floor_ceil_min (ε := ε) (P := P) hv hc
        exact ⟨fun h => (by rw [e1] at h; cases h), fun h => (by rw [e2] at h; cases h)⟩
    · refine ⟨fun h h' => ?_, fun h h' => ?_⟩
      · rw [exactOrPanic_ok (C19_floor hv a ha) h, exactOrPanic_ok (C19_floor hv b hb) h']
        exact_mod_cast Int.floor_le_floor hab
      · rw [exactOrPanic_ok (C19_ceil hv a ha) h, exactOrPanic_ok (C19_ceil hv b hb) h']
        exact_mod_cast Int.ceil_le_ceil hab

example := (C114_floor_ceil (ε := Unit) (cfg := debugCfg) (by decide) (⟨-150⟩ : FP .i64 2) ⟨-120⟩
  ⟨-200⟩ ⟨-200⟩ (by decide +kernel)).1 (by decide +kernel) (by decide +kernel)

/-- C114: `round` is monotone on every type but `FixedPoint<i128, U38>`, and on that with overflow
checks. -/
theorem C114_round {cfg : Cfg} (hv : Valid cfg L P) (a b r s : FP L P)
    (hne : (L = .i128 ∧ P = 38) → cfg.overflowChecks = true) (hab : value a ≤ value b)
    (h : (FP.round cfg a : Res ε _) = .ok r) (h' : (FP.round cfg b : Res ε _) = .ok s) :
    value r ≤ value s := by
  have get {x y : FP L P} (hx : value x ≠ minValue L P) (e : (FP.round cfg x : Res ε _) = .ok y) :
      value y = nearest (value x) ∧ Representable L P (nearest (value x) : ℚ) := by
    by_cases hf : 2 * |x.inner.toInt.tmod (10 ^ P)| ≤ rawMax L
    · have k := C19_round_partial (ε := ε) hv x hx hf
      exact ⟨exactOrPanic_ok k e, exactOrPanic_representable k e⟩
    · by_cases hc : cfg.overflowChecks = true
      · rw [C19_round_panics hv hc x (Or.inr (not_le.1 hf))] at e; cases e
      · have k := C19_round_types_partial (ε := ε) hv x hx fun k => hc (hne k)
        exact ⟨exactOrPanic_ok k e, exactOrPanic_representable k e⟩
  by_cases hb : value b = minValue L P
  · obtain rfl := min_of_le hab hb
    rw [h] at h'; cases h'; exact le_refl _
  · obtain ⟨e2, k2⟩ := get hb h'
    by_cases ha : value a = minValue L P
    · obtain rfl := eq_min ha
      cases hc : cfg.overflowChecks
      · obtain ⟨m, em, -, -, e3⟩ := C19_min_wrapped (ε := ε) (P := P) hv hc
        rw [e3] at h; cases h
        rw [em, e2]
        exact representable_int_ge k2
      · rw [C19_round_panics hv hc _ (Or.inl ha)] at h; cases h
    · rw [(get ha h).1, e2]
      exact_mod_cast round_mono .nearest hab

example := C114_round (ε := Unit) (cfg := releaseCfg) (by decide) (⟨-150⟩ : FP .i64 2) ⟨149⟩
  ⟨-200⟩ ⟨100⟩ (by decide) (by decide +kernel) (by decide +kernel) (by decide +kernel)

/-- Outside C114: on `FixedPoint<i128, U38>` without overflow checks `0.6` becomes `1` and `0.9`
becomes `0`. -/
theorem C114_round_outside_domain :
    (FP.round releaseCfg (⟨BitVec.ofInt 128 (6 * 10 ^ 37)⟩ : FP .i128 38) : Res Unit _) =
      .ok ⟨BitVec.ofInt 128 (10 ^ 38)⟩ ∧
    (FP.round releaseCfg (⟨BitVec.ofInt 128 (9 * 10 ^ 37)⟩ : FP .i128 38) : Res Unit _) =
      .ok ⟨BitVec.ofInt 128 0⟩ := by decide +kernel

/-! ## `round_towards_zero_by`, `next_power_of_ten` -/

/-- The number cut to an integer. -/
theorem trunc_mono {q r : ℚ} (h : q ≤ r) :
    (if 0 ≤ q then ⌊q⌋ else ⌈q⌉) ≤ (if 0 ≤ r then ⌊r⌋ else ⌈r⌉) := by
  split
  · rename_i h1
    rw [if_pos (h1.trans h)]
    exact Int.floor_le_floor h
  · rename_i h1
    split
    · rename_i h2
      have k1 : ⌈q⌉ ≤ 0 := Int.ceil_le.2 (by push_cast; linarith)
      have k2 : 0 ≤ ⌊r⌋ := Int.floor_nonneg.2 h2
      omega
    · exact Int.ceil_le_ceil h

/-- C114: `round_towards_zero_by` is monotone in the number, for every step. -/
theorem C114_round_towards_zero (x y p : FP L P) (h : value x ≤ value y) :
    value (FP.roundTowardsZeroBy x p) ≤ value (FP.roundTowardsZeroBy y p) := by
  by_cases hp : value p = 0
  · rw [C20_zero x p hp, C20_zero y p hp]; exact h
  · rw [C20_truncated x p hp, C20_truncated y p hp]
    rcases lt_or_gt_of_ne hp with k | k
    · have d : value y / value p ≤ value x / value p := div_le_div_of_nonpos_of_le k.le h
      exact mul_le_mul_of_nonpos_right (by exact_mod_cast trunc_mono d) k.le
    · have d : value x / value p ≤ value y / value p := div_le_div_of_nonneg_right h k.le
      exact mul_le_mul_of_nonneg_right (by exact_mod_cast trunc_mono d) k.le

example := C114_round_towards_zero (⟨-1234⟩ : FP .i64 2) ⟨1234⟩ ⟨100⟩ (by decide +kernel)

example : FP.roundTowardsZeroBy (⟨-1234⟩ : FP .i64 2) ⟨-500⟩ = ⟨-1000⟩ ∧
    FP.roundTowardsZeroBy (⟨-999⟩ : FP .i64 2) ⟨-500⟩ = ⟨-500⟩ := by decide +kernel

theorem isNext_mono {q q' r r' : ℚ} (h : IsNextPowerOfTen P q r) (h' : IsNextPowerOfTen P q' r')
    (hq : q ≤ q') : r ≤ r' := by
  obtain ⟨⟨k, rfl⟩, k2, -⟩ := h'
  exact h.2.2 k (hq.trans k2)

/-- C114: `next_power_of_ten` is monotone, for both signs. -/
theorem C114_next_power (a b r s : FP L P) (hab : value a ≤ value b)
    (h : FP.nextPowerOfTen a = .ok r) (h' : FP.nextPowerOfTen b = .ok s) : value r ≤ value s := by
  have pos {q r : ℚ} (hr : IsNextPowerOfTen P q r) : 0 < r := by
    obtain ⟨⟨k, rfl⟩, -⟩ := hr; positivity
  rcases le_or_gt 0 (value a) with ha | ha
  · obtain ⟨u, hu, -⟩ := C21_next_exists P (value a)
    obtain ⟨v, hv, -⟩ := C21_next_exists P (value b)
    rw [((C21_next_power_nonneg a ha u hu).ok_iff r).1 h,
      ((C21_next_power_nonneg b (ha.trans hab) v hv).ok_iff s).1 h']
    exact isNext_mono hu hv hab
  · obtain ⟨u, hu, -⟩ := C21_next_exists P (-value a)
    rw [((C21_next_power_neg a ha u hu).ok_iff r).1 h]
    rcases le_or_gt 0 (value b) with hb | hb
    · obtain ⟨v, hv, -⟩ := C21_next_exists P (value b)
      rw [((C21_next_power_nonneg b hb v hv).ok_iff s).1 h']
      linarith [pos hu, pos hv]
    · obtain ⟨v, hv, -⟩ := C21_next_exists P (-value b)
      rw [((C21_next_power_neg b hb v hv).ok_iff s).1 h']
      linarith [isNext_mono hv hu (by linarith)]

example := C114_next_power (⟨-1001⟩ : FP .i64 9) ⟨-5⟩ ⟨-10000⟩ ⟨-10⟩ (by decide +kernel)
  (by decide +kernel) (by decide +kernel)

/-! ## The divisor of `rdiv`, `recip`, a negative factor -/

/-- What a call that returns has computed, in a directed mode or with overflow checks. -/
theorem rdiv_checked_value {cfg : Cfg} (hv : Valid cfg L P) {a b r : FP L P} {mode : RoundMode}
    (hm : mode ≠ .nearest ∨ cfg.overflowChecks = true) (h : FP.rdiv cfg a b mode = .ok r) :
    value b ≠ 0 ∧ value r = roundTo P mode (value a / value b) := by
  have hb := rdiv_ok_ne_zero hv h
  refine ⟨hb, ?_⟩
  by_cases k : mode = .nearest
  · subst k
    have ho := hm.resolve_left (by simp)
    have hs : NearestSafe L (a.inner.toInt * 10 ^ P) b.inner.toInt := by
      by_contra hs
      rw [(C11_rdiv_nearest_panics_iff hv ho a b hb).2 hs] at h; cases h
    exact ((C11_rdiv_nearest_partial hv a b hb hs).ok_iff r).1 h
  · exact ((C10_rdiv_directed hv a b mode k hb).ok_iff r).1 h

theorem rmul_checked_value {cfg : Cfg} (hv : Valid cfg L P) {a b r : FP L P} {mode : RoundMode}
    (hm : mode ≠ .nearest ∨ cfg.overflowChecks = true) (h : FP.rmul cfg a b mode = .ok r) :
    value r = roundTo P mode (value a * value b) := by
  refine ((C07_rmul_remainder_partial hv a b mode ?_).ok_iff r).1 h
  rintro rfl
  by_contra hs
  rw [(C07_rmul_panics_iff hv (hm.resolve_left (by simp)) a b).2 hs] at h; cases h

/-- C114: dividing by a larger divisor of the same sign brings the quotient closer to zero: it falls
for a dividend that is not negative and rises for one that is not positive.  Directed modes, and
`Nearest` with overflow checks. -/
theorem C114_rdiv_divisor {cfg : Cfg} (hv : Valid cfg L P) (a b c x y : FP L P) (mode : RoundMode)
    (hm : mode ≠ .nearest ∨ cfg.overflowChecks = true) (hbc : value b ≤ value c)
    (hs : 0 < value b ∨ value c < 0)
    (hx : FP.rdiv cfg a b mode = .ok x) (hy : FP.rdiv cfg a c mode = .ok y) :
    (0 ≤ value a → value y ≤ value x) ∧ (value a ≤ 0 → value x ≤ value y) := by
  rw [(rdiv_checked_value hv hm hx).2, (rdiv_checked_value hv hm hy).2]
  have hi : (value c)⁻¹ ≤ (value b)⁻¹ := by
    rcases hs with h | h
    · exact inv_anti₀ h hbc
    · exact (inv_le_inv_of_neg h (lt_of_le_of_lt hbc h)).2 hbc
  simp only [div_eq_mul_inv]
  exact ⟨fun ha => roundTo_mono P mode (mul_le_mul_of_nonneg_left hi ha),
    fun ha => roundTo_mono P mode (mul_le_mul_of_nonpos_left hi ha)⟩

example := (C114_rdiv_divisor (cfg := debugCfg) (by decide) (⟨-1000⟩ : FP .i64 2) ⟨300⟩ ⟨700⟩ ⟨-333⟩
  ⟨-143⟩ .nearest (by decide) (by decide +kernel) (by decide +kernel) (by decide +kernel)
  (by decide +kernel)).2 (by decide +kernel)

/-- C114: `recip` reverses the order of numbers of one sign. -/
theorem C114_recip {cfg : Cfg} (hv : Valid cfg L P) (b c x y : FP L P) (mode : RoundMode)
    (hm : mode ≠ .nearest ∨ cfg.overflowChecks = true) (hbc : value b ≤ value c)
    (hs : 0 < value b ∨ value c < 0)
    (hx : FP.recip cfg b mode = .ok x) (hy : FP.recip cfg c mode = .ok y) : value y ≤ value x := by
  obtain ⟨o, e1, h1⟩ := C15_recip_is_rdiv hv b mode
  obtain ⟨o', e2, h2⟩ := C15_recip_is_rdiv hv c mode
  have : o' = o := value_inj (e2.trans e1.symm)
  subst this
  rw [h1] at hx
  rw [h2] at hy
  exact (C114_rdiv_divisor hv o' b c x y mode hm hbc hs hx hy).1 (by rw [e2]; norm_num)

example := C114_recip (cfg := releaseCfg) (by decide) (⟨-700⟩ : FP .i64 2) ⟨-300⟩ ⟨-15⟩ ⟨-34⟩ .floor
  (by decide) (by decide +kernel) (by decide +kernel) (by decide +kernel) (by decide +kernel)

/-- C114: a factor that is not positive reverses the order. -/
theorem C114_rmul_nonpos {cfg : Cfg} (hv : Valid cfg L P) (a b c x y : FP L P) (mode : RoundMode)
    (hm : mode ≠ .nearest ∨ cfg.overflowChecks = true) (hab : value a ≤ value b) (hc : value c ≤ 0)
    (hx : FP.rmul cfg a c mode = .ok x) (hy : FP.rmul cfg b c mode = .ok y) :
    value y ≤ value x := by
  rw [rmul_checked_value hv hm hx, rmul_checked_value hv hm hy]
  exact roundTo_mono P mode (mul_le_mul_of_nonpos_right hab hc)

example := C114_rmul_nonpos (cfg := debugCfg) (by decide) (⟨-150⟩ : FP .i64 2) ⟨333⟩ ⟨-133⟩ ⟨200⟩
  ⟨-443⟩ .nearest (by decide) (by decide +kernel) (by decide +kernel) (by decide +kernel)
  (by decide +kernel)

/-! ## Saturating operations, conversions -/

theorem clamp_mono {q r : ℚ} (h : q ≤ r) : clamp L P q ≤ clamp L P r :=
  max_le_max le_rfl (min_le_min le_rfl h)

/-- C114: the saturating operations are monotone in each argument, `saturating_sub` antitone in the
second, `saturating_mul` according to the sign of the other factor. -/
theorem C114_saturating (a b a' b' : FP L P) (n : BitVec L.bits) (ha : value a ≤ value a')
    (hb : value b ≤ value b') :
    value (FP.saturatingAdd a b) ≤ value (FP.saturatingAdd a' b') ∧
    value (FP.saturatingSub a b') ≤ value (FP.saturatingSub a' b) ∧
    (0 ≤ n.toInt → value (FP.saturatingMul a n) ≤ value (FP.saturatingMul a' n)) ∧
    (n.toInt ≤ 0 → value (FP.saturatingMul a' n) ≤ value (FP.saturatingMul a n)) := by
  simp only [C05_saturating_add, C05_saturating_sub, C06_saturating_mul]
  refine ⟨clamp_mono (by linarith), clamp_mono (by linarith), fun h => clamp_mono ?_,
    fun h => clamp_mono ?_⟩
  · exact mul_le_mul_of_nonneg_right ha (by exact_mod_cast h)
  · exact mul_le_mul_of_nonpos_right ha (by exact_mod_cast h)

example : FP.saturatingAdd (⟨32000⟩ : FP .i16 2) ⟨700⟩ = ⟨32700⟩ ∧
    FP.saturatingAdd (⟨32100⟩ : FP .i16 2) ⟨700⟩ = ⟨32767⟩ := by decide +kernel

/-- C114: `saturating_rmul` is monotone for a factor that is not negative and antitone for one that is
not positive. -/
theorem C114_saturating_rmul {cfg : Cfg} (hv : Valid cfg L P) (a b c x y : FP L P)
    (mode : RoundMode) (hm : mode ≠ .nearest ∨ cfg.overflowChecks = true) (hab : value a ≤ value b)
    (hx : (FP.saturatingRmul cfg a c mode : Res ε _) = .ok x)
    (hy : (FP.saturatingRmul cfg b c mode : Res ε _) = .ok y) :
    (0 ≤ value c → value x ≤ value y) ∧ (value c ≤ 0 → value y ≤ value x) := by
  have get {z r : FP L P} (h : (FP.saturatingRmul cfg z c mode : Res ε _) = .ok r) :
      value r = clamp L P (roundTo P mode (value z * value c)) := by
    obtain ⟨s, e, v⟩ := C09_saturating_rmul_partial (ε := ε) hv z c mode (by
      rintro rfl
      by_contra hs
      rw [(C09_saturating_rmul_panics_iff hv (hm.resolve_left (by simp)) z c).2 hs] at h; cases h)
    rw [e] at h; cases h; exact v
  rw [get hx, get hy]
  exact ⟨fun hc => clamp_mono (roundTo_mono P mode (mul_le_mul_of_nonneg_right hab hc)),
    fun hc => clamp_mono (roundTo_mono P mode (mul_le_mul_of_nonpos_right hab hc))⟩

example := (C114_saturating_rmul (ε := Unit) (cfg := debugCfg) (by decide) (⟨-15000⟩ : FP .i16 2)
  ⟨15000⟩ ⟨-1000⟩ ⟨32767⟩ ⟨-32768⟩ .nearest (by decide) (by decide +kernel) (by decide +kernel)
  (by decide +kernel)).2 (by decide +kernel)

/-- C114: the conversions from integers and from decimals keep the order. -/
theorem C114_conversions {cfg : Cfg} (hv : Valid cfg L P) (x y : FP L P) :
    (∀ n m : Int, n ≤ m → FP.tryFromInt cfg n = .ok x → FP.tryFromInt cfg m = .ok y →
      value x ≤ value y) ∧
    (∀ (n m : BitVec L.bits) (e e' : Int), (n.toInt : ℚ) * 10 ^ e ≤ (m.toInt : ℚ) * 10 ^ e' →
      (10 : Int) ^ (e + P).toNat ≤ rawMax L → (10 : Int) ^ (e' + P).toNat ≤ rawMax L →
      FP.fromDecimal cfg n e = .ok x → FP.fromDecimal cfg m e' = .ok y → value x ≤ value y) := by
  constructor
  · intro n m h h1 h2
    rw [((C27_try_from_int hv n).ok_iff x).1 h1, ((C27_try_from_int hv m).ok_iff y).1 h2]
    exact_mod_cast h
  · have get {n : BitVec L.bits} {e : Int} {z : FP L P} (hp : (10 : Int) ^ (e + P).toNat ≤ rawMax L)
        (h1 : FP.fromDecimal cfg n e = .ok z) : value z = (n.toInt : ℚ) * 10 ^ e := by
      have he : -(P : Int) ≤ e ∧ e ≤ 10 := by
        by_contra k
        rw [C24_from_decimal_exponent cfg n e (by omega)] at h1; cases h1
      exact ((C24_from_decimal_partial cfg n e he hp).ok_iff z).1 h1
    intro n m e e' h hp hp' h1 h2
    rw [get hp h1, get hp' h2]
    exact h

example := (C114_conversions (cfg := debugCfg) (by decide) (⟨-1500⟩ : FP .i64 2) ⟨-1499⟩).2 (-15) (-1499)
  0 (-2) (by decide +kernel) (by decide +kernel) (by decide +kernel) (by decide +kernel)
  (by decide +kernel)

end Fixnum
