import Verif.Props.Order
import Verif.Props.Decimal

/-!
# Properties C66, C67, C68: laws that relate operations to each other

C66: negation.  C67: multiplication and division.  C68: squares and square roots.
-/

namespace Fixnum

open Res Spec

variable {L : Layout} {P : Nat} {ε : Type}

/-! ## C66 -/

theorem cneg_value {a a' : FP L P} (h : FP.cneg a = .ok a') : value a' = -value a :=
  ((C04_cneg_exact a).ok_iff a').1 h

theorem value_neg_iff {a a' : FP L P} : value a' = -value a ↔ a'.inner.toInt = -a.inner.toInt := by
  have hp := ten_pow_ne P
  unfold value
  rw [← neg_div, div_left_inj' hp]
  constructor
  · intro h; exact_mod_cast h
  · intro h; rw [h]; push_cast; rfl

theorem cneg_ok_toInt {a a' : FP L P} (h : FP.cneg a = .ok a') :
    a'.inner.toInt = -a.inner.toInt := value_neg_iff.1 (cneg_value h)

/-- What a quotient rounded with `Nearest` is, in every build. -/
theorem rdiv_nearest_ok {cfg : Cfg} (hv : Valid cfg L P) {a b r : FP L P} (hb : value b ≠ 0)
    (h : FP.rdiv cfg a b .nearest = .ok r) :
    value r =
      if (a.inner.toInt * 10 ^ P).tmod b.inner.toInt = 0 ∨
        (2 * |(a.inner.toInt * 10 ^ P).tmod b.inner.toInt| ≤ rawMax L ∧ b.inner.toInt ≠ rawMin L)
      then roundTo P .nearest (value a / value b)
      else if b.inner.toInt = rawMin L then
        roundTo P (if 0 ≤ value a / value b then .ceil else .floor) (value a / value b)
      else roundTo P (if 0 ≤ value a / value b then .floor else .ceil) (value a / value b) := by
  have hb' : b.inner.toInt ≠ 0 := by rwa [Ne, value_eq_zero_iff] at hb
  have hfit : Fits L.bits ((a.inner.toInt * 10 ^ P).tdiv b.inner.toInt) := by
    by_contra hc
    rw [rdiv_overflow hv a b .nearest hb' hc] at h
    cases h
  have hmin : b.inner.toInt = rawMin L ↔ value b = minValue L P := by
    unfold value minValue
    rw [div_left_inj' (ten_pow_ne P)]
    exact_mod_cast Iff.rfl
  split
  · rename_i hs
    refine ((C11_rdiv_nearest_partial hv a b hb ?_).ok_iff r).1 h
    intro h1 _
    rcases hs with hs | hs
    · exact absurd hs h1
    · exact hs
  · rename_i hs
    rw [not_or] at hs
    have hns : ¬ NearestSafe L (a.inner.toInt * 10 ^ P) b.inner.toInt :=
      fun hc => hs.2 (hc hs.1 ((fits_iff L _).1 hfit))
    cases hc : cfg.overflowChecks
    · have := ((C11_rdiv_nearest_wrapped hv hc a b hb hns).ok_iff r).1 h
      rw [this]
      by_cases hm : b.inner.toInt = rawMin L
      · rw [if_pos (hmin.1 hm), if_pos hm]
      · rw [if_neg (fun h => hm (hmin.2 h)), if_neg hm]
    · rw [(C11_rdiv_nearest_panics_iff hv hc a b hb).2 hns] at h
      cases h

/-- Truncation is odd. -/
theorem roundTo_trunc_neg (P : Nat) (q : ℚ) :
    roundTo P (if 0 ≤ -q then .floor else .ceil) (-q) =
      -roundTo P (if 0 ≤ q then .floor else .ceil) q := by
  rcases lt_trichotomy q 0 with h | h | h
  · rw [if_pos (by linarith), if_neg (by linarith), roundTo_neg]; rfl
  · subst h; simp [roundTo, Spec.round]
  · rw [if_neg (by linarith), if_pos (by linarith), roundTo_neg]; rfl

/-- Rounding away from zero is odd. -/
theorem roundTo_away_neg (P : Nat) (q : ℚ) :
    roundTo P (if 0 ≤ -q then .ceil else .floor) (-q) =
      -roundTo P (if 0 ≤ q then .ceil else .floor) q := by
  rcases lt_trichotomy q 0 with h | h | h
  · rw [if_pos (by linarith), if_neg (by linarith), roundTo_neg]; rfl
  · subst h; simp [roundTo, Spec.round]
  · rw [if_neg (by linarith), if_pos (by linarith), roundTo_neg]; rfl

/-- C66 for `rdiv`, the dividend negated: the result is negated, `Floor` and `Ceil` swapped; every
mode, every build (even where `Nearest` is not the nearest). -/
theorem C66_rdiv_neg_left {cfg : Cfg} (hv : Valid cfg L P) (a a' b r r' : FP L P)
    (mode : RoundMode) (ha : FP.cneg a = .ok a') (h : FP.rdiv cfg a b mode = .ok r)
    (h' : FP.rdiv cfg a' b (flip mode) = .ok r') : value r' = -value r := by
  have hb := rdiv_ok_ne_zero hv h
  have e : value a' / value b = -(value a / value b) := by rw [cneg_value ha]; ring
  by_cases hm : mode = .nearest
  · subst hm
    have f := rdiv_nearest_ok hv hb h
    have f' := rdiv_nearest_ok hv hb h'
    simp only [(cneg_ok_toInt ha), neg_mul, Int.neg_tmod, neg_eq_zero, e, abs_neg] at f'
    rw [f, f']
    split
    · rw [roundTo_neg]; rfl
    · split
      · exact roundTo_away_neg P _
      · exact roundTo_trunc_neg P _
  · have hm' : flip mode ≠ .nearest := by cases mode <;> simp_all [Spec.flip]
    rw [((C10_rdiv_directed hv a b mode hm hb).ok_iff r).1 h,
      ((C10_rdiv_directed hv a' b _ hm' hb).ok_iff r').1 h', e, roundTo_neg]
    cases mode <;> rfl

example := C66_rdiv_neg_left (cfg := debugCfg) (by decide) (⟨100⟩ : FP .i64 1) ⟨-100⟩ ⟨70⟩ ⟨14⟩ ⟨-14⟩
  .floor (by decide +kernel) (by decide +kernel) (by decide +kernel)

/-- C66 for `rdiv`, the divisor negated.  (The divisor `MIN` cannot be negated, but the result of
negating it is never `MIN`, so nothing is excluded besides.) -/
theorem C66_rdiv_neg_right {cfg : Cfg} (hv : Valid cfg L P) (a b b' r r' : FP L P)
    (mode : RoundMode) (hneg : FP.cneg b = .ok b') (h : FP.rdiv cfg a b mode = .ok r)
    (h' : FP.rdiv cfg a b' (flip mode) = .ok r') : value r' = -value r := by
  have hb := rdiv_ok_ne_zero hv h
  have hb' := rdiv_ok_ne_zero hv h'
  have e : value a / value b' = -(value a / value b) := by rw [cneg_value hneg, div_neg]
  have hi := cneg_ok_toInt hneg
  have hhalf := half_pos L
  have f1 := (fits_iff L _).1 (toInt_fits b.inner)
  have f2 := (fits_iff L _).1 (toInt_fits b'.inner)
  rw [rawMin_half, rawMax_half] at f1 f2
  have n1 : b.inner.toInt ≠ rawMin L := by rw [rawMin_half]; omega
  have n2 : b'.inner.toInt ≠ rawMin L := by rw [rawMin_half]; omega
  by_cases hm : mode = .nearest
  · subst hm
    have f := rdiv_nearest_ok hv hb h
    have f' := rdiv_nearest_ok hv hb' h'
    rw [if_neg n1] at f
    rw [if_neg n2, hi, Int.tmod_neg, e] at f'
    have hn : (-b.inner.toInt ≠ rawMin L) = (b.inner.toInt ≠ rawMin L) := by
      rw [← hi]; exact propext ⟨fun _ => n1, fun _ => n2⟩
    simp only [hn] at f'
    rw [f, f']
    split
    · rw [roundTo_neg]; rfl
    · exact roundTo_trunc_neg P _
  · have hm' : flip mode ≠ .nearest := by cases mode <;> simp_all [Spec.flip]
    rw [((C10_rdiv_directed hv a b mode hm hb).ok_iff r).1 h,
      ((C10_rdiv_directed hv a b' _ hm' hb').ok_iff r').1 h', e, roundTo_neg]
    cases mode <;> rfl

example := C66_rdiv_neg_right (cfg := debugCfg) (by decide) (⟨700⟩ : FP .i64 2) ⟨300⟩ ⟨-300⟩ ⟨233⟩ ⟨-233⟩ .floor
  (by decide +kernel) (by decide +kernel) (by decide +kernel)

example : FP.cneg (⟨7⟩ : FP .i64 2) = .ok ⟨-7⟩ ∧
    FP.rdiv debugCfg (⟨7⟩ : FP .i64 2) ⟨300⟩ .floor = .ok ⟨2⟩ ∧
    FP.rdiv debugCfg (⟨-7⟩ : FP .i64 2) ⟨300⟩ .ceil = .ok ⟨-2⟩ ∧
    FP.rdiv debugCfg (⟨7⟩ : FP .i64 2) ⟨200⟩ .nearest = .ok ⟨4⟩ ∧
    FP.rdiv debugCfg (⟨-7⟩ : FP .i64 2) ⟨200⟩ .nearest = .ok ⟨-4⟩ ∧
    FP.cneg (⟨300⟩ : FP .i64 2) = .ok ⟨-300⟩ ∧
    FP.rdiv debugCfg (⟨7⟩ : FP .i64 2) ⟨-300⟩ .ceil = .ok ⟨-2⟩ := by decide +kernel

theorem cneg_ne_min {a a' : FP L P} (h : FP.cneg a = .ok a') :
    value a ≠ minValue L P ∧ value a' ≠ minValue L P := by
  have hi := cneg_ok_toInt h
  have hhalf := half_pos L
  have f1 := (fits_iff L _).1 (toInt_fits a.inner)
  have f2 := (fits_iff L _).1 (toInt_fits a'.inner)
  rw [rawMin_half, rawMax_half] at f1 f2
  unfold value minValue
  rw [Ne, Ne, div_left_inj' (ten_pow_ne P), div_left_inj' (ten_pow_ne P), rawMin_half]
  constructor <;> intro hc <;> norm_cast at hc <;> omega

/-- What `integral` returns, in every build, away from `MIN`. -/
theorem integral_ok {cfg : Cfg} (hv : Valid cfg L P) {a : FP L P} {mode : RoundMode}
    {i : BitVec L.bits} (hm : value a ≠ minValue L P)
    (h : (FP.integral cfg a mode : Res ε _) = .ok i) :
    i.toInt = if mode = .nearest ∧ rawMax L < 2 * |a.inner.toInt.tmod (10 ^ P)| then
        Spec.round (if 0 ≤ value a then .floor else .ceil) (value a)
      else Spec.round mode (value a) := by
  split
  · rename_i hs
    cases hc : cfg.overflowChecks
    · obtain ⟨j, h1, h2⟩ := C18_integral_wrapped (ε := ε) hv hc a mode (Or.inr hs)
      rw [h1] at h; cases h
      exact h2
    · rw [(C18_integral_panics_iff hv hc a mode).2 (Or.inr hs)] at h
      cases h
  · rename_i hs
    obtain ⟨j, h1, h2⟩ := C18_integral_partial (ε := ε) hv a mode hm
      fun hn => not_lt.1 fun hc => hs ⟨hn, hc⟩
    rw [h1] at h; cases h
    exact h2

theorem round_trunc_neg (q : ℚ) :
    Spec.round (if 0 ≤ -q then .floor else .ceil) (-q) =
      -Spec.round (if 0 ≤ q then .floor else .ceil) q := by
  rcases lt_trichotomy q 0 with h | h | h
  · rw [if_pos (by linarith), if_neg (by linarith), round_neg]; rfl
  · subst h; simp [Spec.round]
  · rw [if_neg (by linarith), if_pos (by linarith), round_neg]; rfl

/-- C66 for `integral`: every mode, every build. -/
theorem C66_integral_neg {cfg : Cfg} (hv : Valid cfg L P) (a a' : FP L P) (mode : RoundMode)
    (i i' : BitVec L.bits) (ha : FP.cneg a = .ok a')
    (h : (FP.integral cfg a mode : Res ε _) = .ok i)
    (h' : (FP.integral cfg a' (flip mode) : Res ε _) = .ok i') : i'.toInt = -i.toInt := by
  obtain ⟨hm, hm'⟩ := cneg_ne_min ha
  have f := integral_ok hv hm h
  have f' := integral_ok hv hm' h'
  have hflip : Spec.flip mode = .nearest ↔ mode = .nearest := by
    cases mode <;> simp [Spec.flip]
  simp only [cneg_ok_toInt ha, cneg_value ha, Int.neg_tmod, abs_neg, hflip] at f'
  rw [f, f']
  split
  · exact round_trunc_neg _
  · rw [round_neg]; cases mode <;> rfl

example := C66_integral_neg (ε := Unit) (cfg := debugCfg) (by decide) (⟨250⟩ : FP .i64 2) ⟨-250⟩ .floor 2 (-2)
  (by decide +kernel) (by decide +kernel) (by decide +kernel)

example : FP.cneg (⟨250⟩ : FP .i64 2) = .ok ⟨-250⟩ ∧
    (FP.integral debugCfg (⟨250⟩ : FP .i64 2) .floor : Res Unit _) = .ok 2 ∧
    (FP.integral debugCfg (⟨-250⟩ : FP .i64 2) .ceil : Res Unit _) = .ok (-2) ∧
    (FP.integral debugCfg (⟨250⟩ : FP .i64 2) .nearest : Res Unit _) = .ok 3 ∧
    (FP.integral debugCfg (⟨-250⟩ : FP .i64 2) .nearest : Res Unit _) = .ok (-3) := by
  decide +kernel

theorem exactOrPanic_ok {r : Res ε (FP L P)} {q : ℚ} {c : FP L P} (h : ExactOrPanic r q)
    (hr : r = .ok c) : value c = q := by
  by_cases hq : Representable L P q
  · obtain ⟨d, hd, e⟩ := h.1 hq
    rw [hr] at hd; cases hd; exact e
  · have := h.2 hq
    rw [hr] at this; cases this

/-- C66 for `floor` and `ceil`: `(-x).ceil() = -x.floor()`. -/
theorem C66_floor_ceil_neg {cfg : Cfg} (hv : Valid cfg L P) (a a' r r' : FP L P)
    (ha : FP.cneg a = .ok a') (h : (FP.floor cfg a : Res ε (FP L P)) = .ok r)
    (h' : (FP.ceil cfg a' : Res ε (FP L P)) = .ok r') : value r' = -value r := by
  obtain ⟨hm, hm'⟩ := cneg_ne_min ha
  rw [exactOrPanic_ok (C19_floor hv a hm) h, exactOrPanic_ok (C19_ceil hv a' hm') h',
    cneg_value ha, Int.ceil_neg]
  push_cast; rfl

example := C66_floor_ceil_neg (ε := Unit) (cfg := debugCfg) (by decide) (⟨-250⟩ : FP .i64 2) ⟨250⟩ ⟨-300⟩ ⟨300⟩
  (by decide +kernel) (by decide +kernel) (by decide +kernel)

example : FP.cneg (⟨-250⟩ : FP .i64 2) = .ok ⟨250⟩ ∧
    (FP.floor debugCfg (⟨-250⟩ : FP .i64 2) : Res Unit _) = .ok ⟨-300⟩ ∧
    (FP.ceil debugCfg (⟨250⟩ : FP .i64 2) : Res Unit _) = .ok ⟨300⟩ := by decide +kernel

/-- C66 for `half_sum`, `Floor` and `Ceil`: unconditional. -/
theorem C66_half_sum_neg (cfg : Cfg) (a a' b b' : FP L P) (mode : RoundMode)
    (hmode : mode ≠ .nearest) (ha : FP.cneg a = .ok a') (hb : FP.cneg b = .ok b') :
    ∃ r r', (FP.halfSum cfg a b mode : Res ε (FP L P)) = .ok r ∧
      (FP.halfSum cfg a' b' (flip mode) : Res ε (FP L P)) = .ok r' ∧ value r' = -value r := by
  have hmode' : Spec.flip mode ≠ .nearest := by cases mode <;> simp_all [Spec.flip]
  obtain ⟨r, h1, h2⟩ := C16_half_sum_directed (ε := ε) cfg a b mode hmode
  obtain ⟨r', h1', h2'⟩ := C16_half_sum_directed (ε := ε) cfg a' b' _ hmode'
  refine ⟨r, r', h1, h1', ?_⟩
  have e : (value a' + value b') / 2 = -((value a + value b) / 2) := by
    rw [cneg_value ha, cneg_value hb]; ring
  rw [h2, h2', e, roundTo_neg]
  cases mode <;> rfl

example := C66_half_sum_neg (ε := Unit) debugCfg (⟨100⟩ : FP .i64 1) ⟨-100⟩ ⟨-7⟩ ⟨7⟩ .floor (by decide)
  (by decide +kernel) (by decide +kernel)

/-- C66 is false for `half_sum(.., Nearest)` of two positive numbers (ties, see C17). -/
theorem C66_half_sum_nearest_false :
    (FP.halfSum debugCfg (⟨1⟩ : FP .i64 9) ⟨2⟩ .nearest : Res Unit _) = .ok ⟨2⟩ ∧
    (FP.halfSum debugCfg (⟨-1⟩ : FP .i64 9) ⟨-2⟩ .nearest : Res Unit _) = .ok ⟨-1⟩ := by
  decide +kernel

/-- C66 for `half_sum(.., Nearest)` of two numbers that are not of the same sign.
Missing: two positive or two negative numbers, for which it is false. -/
theorem C66_half_sum_nearest_partial (cfg : Cfg) (a a' b b' : FP L P)
    (hs : ¬ (0 < value a ∧ 0 < value b) ∧ ¬ (value a < 0 ∧ value b < 0))
    (ha : FP.cneg a = .ok a') (hb : FP.cneg b = .ok b') :
    ∃ r r', (FP.halfSum cfg a b .nearest : Res ε (FP L P)) = .ok r ∧
      (FP.halfSum cfg a' b' .nearest : Res ε (FP L P)) = .ok r' ∧ value r' = -value r := by
  obtain ⟨r, h1, h2⟩ := C17_half_sum_ties_partial (ε := ε) cfg a b hs.2
  obtain ⟨r', h1', h2'⟩ := C17_half_sum_ties_partial (ε := ε) cfg a' b' (by
    rw [cneg_value ha, cneg_value hb]
    intro hc; exact hs.1 ⟨by linarith [hc.1], by linarith [hc.2]⟩)
  refine ⟨r, r', h1, h1', ?_⟩
  have e : (value a' + value b') / 2 = -((value a + value b) / 2) := by
    rw [cneg_value ha, cneg_value hb]; ring
  rw [h2, h2', e, roundTo_neg]
  rfl

example := C66_half_sum_nearest_partial (ε := Unit) debugCfg (⟨-1⟩ : FP .i64 9) ⟨1⟩ ⟨4⟩ ⟨-4⟩ (by decide +kernel)
  (by decide +kernel) (by decide +kernel)

example : FP.cneg (⟨-1⟩ : FP .i64 9) = .ok ⟨1⟩ ∧ FP.cneg (⟨4⟩ : FP .i64 9) = .ok ⟨-4⟩ ∧
    (FP.halfSum debugCfg (⟨-1⟩ : FP .i64 9) ⟨4⟩ .floor : Res Unit _) = .ok ⟨1⟩ ∧
    (FP.halfSum debugCfg (⟨1⟩ : FP .i64 9) ⟨-4⟩ .ceil : Res Unit _) = .ok ⟨-1⟩ ∧
    (FP.halfSum debugCfg (⟨-1⟩ : FP .i64 9) ⟨4⟩ .nearest : Res Unit _) = .ok ⟨2⟩ ∧
    (FP.halfSum debugCfg (⟨1⟩ : FP .i64 9) ⟨-4⟩ .nearest : Res Unit _) = .ok ⟨-2⟩ := by
  decide +kernel

/-- C66 for `round_towards_zero_by`: unconditional in the number, and the sign of the step does not
matter. -/
theorem C66_round_towards_zero_neg (a a' p : FP L P) (ha : FP.cneg a = .ok a') :
    value (FP.roundTowardsZeroBy a' p) = -value (FP.roundTowardsZeroBy a p) := by
  by_cases hp : value p = 0
  · rw [C20_zero a p hp, C20_zero a' p hp, cneg_value ha]
  · have t := round_trunc_neg (value a / value p)
    have e : value a' / value p = -(value a / value p) := by rw [cneg_value ha]; ring
    rw [C20_truncated a p hp, C20_truncated a' p hp, e]
    have u : ∀ q : ℚ, (if 0 ≤ q then ⌊q⌋ else ⌈q⌉ : Int) =
        Spec.round (if 0 ≤ q then .floor else .ceil) q := by
      intro q; split <;> rfl
    rw [u, u, t]; push_cast; ring

example := C66_round_towards_zero_neg (⟨12345⟩ : FP .i64 2) ⟨-12345⟩ ⟨10⟩ (by decide +kernel)

theorem C66_round_towards_zero_step (a p p' : FP L P) (hp : FP.cneg p = .ok p') :
    FP.roundTowardsZeroBy a p' = FP.roundTowardsZeroBy a p := by
  apply value_inj
  by_cases h0 : value p = 0
  · rw [C20_zero a p h0, C20_zero a p' (by rw [cneg_value hp, h0, neg_zero])]
  · have h0' : value p' ≠ 0 := by rw [cneg_value hp]; exact neg_ne_zero.2 h0
    have t := round_trunc_neg (value a / value p)
    have e : value a / value p' = -(value a / value p) := by rw [cneg_value hp, div_neg]
    rw [C20_truncated a p h0, C20_truncated a p' h0', e]
    have u : ∀ q : ℚ, (if 0 ≤ q then ⌊q⌋ else ⌈q⌉ : Int) =
        Spec.round (if 0 ≤ q then .floor else .ceil) q := by
      intro q; split <;> rfl
    rw [u, u, t, cneg_value hp]; push_cast; ring

example := C66_round_towards_zero_step (⟨1234⟩ : FP .i64 2) ⟨100⟩ ⟨-100⟩ (by decide +kernel)

example : FP.cneg (⟨1234⟩ : FP .i64 2) = .ok ⟨-1234⟩ ∧
    FP.roundTowardsZeroBy (⟨1234⟩ : FP .i64 2) ⟨100⟩ = ⟨1200⟩ ∧
    FP.roundTowardsZeroBy (⟨-1234⟩ : FP .i64 2) ⟨100⟩ = ⟨-1200⟩ := by decide +kernel

/-- C66 for `next_power_of_ten`, every number but zero. -/
theorem C66_next_power_neg (a a' : FP L P) (h0 : value a ≠ 0) (ha : FP.cneg a = .ok a') :
    ∃ q : ℚ, ExactOr ArithErr.overflow (FP.nextPowerOfTen a) q ∧
      ExactOr ArithErr.overflow (FP.nextPowerOfTen a') (-q) := by
  have e := cneg_value ha
  rcases lt_or_gt_of_ne h0 with h | h
  · obtain ⟨r, hr, _⟩ := C21_next_exists P (-value a)
    refine ⟨-r, C21_next_power_neg a h r hr, ?_⟩
    rw [neg_neg]
    exact C21_next_power_nonneg a' (by rw [e]; linarith) r (by rw [e]; exact hr)
  · obtain ⟨r, hr, _⟩ := C21_next_exists P (value a)
    refine ⟨r, C21_next_power_nonneg a h.le r hr, ?_⟩
    exact C21_next_power_neg a' (by rw [e]; linarith) r (by rw [e, neg_neg]; exact hr)

example := C66_next_power_neg (⟨1234⟩ : FP .i64 2) ⟨-1234⟩ (by decide +kernel) (by decide +kernel)

example : FP.cneg (⟨1234⟩ : FP .i64 2) = .ok ⟨-1234⟩ ∧
    FP.nextPowerOfTen (⟨1234⟩ : FP .i64 2) = .ok ⟨10000⟩ ∧
    FP.nextPowerOfTen (⟨-1234⟩ : FP .i64 2) = .ok ⟨-10000⟩ := by decide +kernel

/-! ## C67 -/

theorem roundTo_floor_of {q : ℚ} (x : FP L P) (h1 : value x ≤ q) (h2 : q < value x + 1 / 10 ^ P) :
    roundTo P .floor q = value x := by
  have hp := ten_pow_pos P
  unfold roundTo value at *
  rw [div_left_inj' hp.ne', Int.cast_inj]
  simp only [Spec.round]
  rw [Int.floor_eq_iff]
  rw [div_le_iff₀ hp] at h1
  rw [← add_div, lt_div_iff₀ hp] at h2
  exact ⟨h1, h2⟩

theorem roundTo_ceil_of {q : ℚ} (x : FP L P) (h1 : value x - 1 / 10 ^ P < q) (h2 : q ≤ value x) :
    roundTo P .ceil q = value x := by
  have hp := ten_pow_pos P
  unfold roundTo value at *
  rw [div_left_inj' hp.ne', Int.cast_inj]
  simp only [Spec.round]
  rw [Int.ceil_eq_iff]
  rw [le_div_iff₀ hp] at h2
  rw [← sub_div, div_lt_iff₀ hp] at h1
  exact ⟨h1, h2⟩

theorem roundTo_nearest_of {q : ℚ} (x : FP L P) (h : |q - value x| < 1 / 2 / 10 ^ P) :
    roundTo P .nearest q = value x := by
  have hp := ten_pow_pos P
  have hs := round_nearest_spec (q * 10 ^ P)
  unfold roundTo value at *
  rw [div_left_inj' hp.ne', Int.cast_inj]
  have h' : |q * 10 ^ P - x.inner.toInt| < 1 / 2 := by
    have e : q * 10 ^ P - x.inner.toInt = (q - x.inner.toInt / 10 ^ P) * 10 ^ P := by
      field_simp
    rw [e, abs_mul, abs_of_pos hp]
    rwa [lt_div_iff₀ hp] at h
  rw [abs_le] at hs
  rw [abs_lt] at h'
  have h1 : ((Spec.round .nearest (q * 10 ^ P) - x.inner.toInt : Int) : ℚ) < 1 := by
    push_cast; linarith [hs.1, hs.2, h'.1, h'.2]
  have h2 : (-1 : ℚ) < ((Spec.round .nearest (q * 10 ^ P) - x.inner.toInt : Int) : ℚ) := by
    push_cast; linarith [hs.1, hs.2, h'.1, h'.2]
  have h1' : Spec.round .nearest (q * 10 ^ P) - x.inner.toInt < 1 := by exact_mod_cast h1
  have h2' : -1 < Spec.round .nearest (q * 10 ^ P) - x.inner.toInt := by exact_mod_cast h2
  omega

/-- Rounding in any mode moves a number by less than one unit. -/
theorem roundTo_error (P : Nat) (mode : RoundMode) (q : ℚ) :
    |roundTo P mode q - q| < 1 / 10 ^ P := by
  have hp := ten_pow_pos P
  have e : roundTo P mode q - q = (Spec.round mode (q * 10 ^ P) - q * 10 ^ P) / 10 ^ P := by
    unfold roundTo; field_simp
  rw [e, abs_div, abs_of_pos hp, div_lt_div_iff_of_pos_right hp, abs_lt]
  cases mode
  · have := round_ceil_spec (q * 10 ^ P); constructor <;> linarith [this.1, this.2]
  · have := abs_le.1 (round_nearest_spec (q * 10 ^ P)); constructor <;> linarith [this.1, this.2]
  · have := round_floor_spec (q * 10 ^ P); constructor <;> linarith [this.1, this.2]

theorem roundTo_nearest_error (P : Nat) (q : ℚ) :
    |roundTo P .nearest q - q| ≤ 1 / 2 / 10 ^ P := by
  have hp := ten_pow_pos P
  have e : roundTo P .nearest q - q = (Spec.round .nearest (q * 10 ^ P) - q * 10 ^ P) / 10 ^ P := by
    unfold roundTo; field_simp
  rw [e, abs_div, abs_of_pos hp, div_le_div_iff_of_pos_right hp, abs_sub_comm]
  exact round_nearest_spec _

/-- In every build, every returned product is the exact one rounded in some direction. -/
theorem rmul_some {cfg : Cfg} (hv : Valid cfg L P) {a b r : FP L P} {mode : RoundMode}
    (h : FP.rmul cfg a b mode = .ok r) : ∃ m, value r = roundTo P m (value a * value b) := by
  by_cases hm : mode = .nearest
  · subst hm; exact rmul_nearest_some hv a b r h
  · exact ⟨mode, ((C07_rmul_partial hv a b mode fun h => absurd h hm).ok_iff r).1 h⟩

/-- In every build, every returned quotient is the exact one rounded in some direction. -/
theorem rdiv_some {cfg : Cfg} (hv : Valid cfg L P) {a b r : FP L P} {mode : RoundMode}
    (h : FP.rdiv cfg a b mode = .ok r) : ∃ m, value r = roundTo P m (value a / value b) := by
  have hb := rdiv_ok_ne_zero hv h
  by_cases hm : mode = .nearest
  · subst hm; exact rdiv_nearest_some hv a b r hb h
  · exact ⟨mode, ((C10_rdiv_directed hv a b mode hm hb).ok_iff r).1 h⟩

/-- C67: the remainder of a division is smaller than one unit of the quotient times the divisor, in
every mode and build. -/
theorem C67_remainder {cfg : Cfg} (hv : Valid cfg L P) (a b q : FP L P) (mode : RoundMode)
    (h : FP.rdiv cfg a b mode = .ok q) :
    |value a - value q * value b| < value (FP.epsilon : FP L P) * |value b| := by
  have hb := rdiv_ok_ne_zero hv h
  obtain ⟨m, hm⟩ := rdiv_some hv h
  have he := roundTo_error P m (value a / value b)
  rw [C52_epsilon.1, ← hm] at *
  have e : value a - value q * value b = -((value q - value a / value b) * value b) := by
    field_simp; ring
  rw [e, abs_neg, abs_mul]
  exact mul_lt_mul_of_pos_right he (abs_pos.2 hb)

example := C67_remainder (cfg := debugCfg) (by decide) (⟨100⟩ : FP .i64 1) ⟨-70⟩ ⟨-15⟩ .floor
  (by decide +kernel)

/-- C67: for `Floor` and a positive divisor the remainder is not negative. -/
theorem C67_remainder_floor {cfg : Cfg} (hv : Valid cfg L P) (a b q : FP L P) (hb : 0 < value b)
    (h : FP.rdiv cfg a b .floor = .ok q) :
    0 ≤ value a - value q * value b ∧
      value a - value q * value b < value (FP.epsilon : FP L P) * value b := by
  have h1 := (C10_rdiv_floor hv a b q hb.ne' h).1
  have h2 := C67_remainder hv a b q _ h
  rw [le_div_iff₀ hb] at h1
  rw [abs_of_pos hb] at h2
  exact ⟨by linarith, lt_of_le_of_lt (le_abs_self _) h2⟩

example := C67_remainder_floor (cfg := debugCfg) (by decide) (⟨-100⟩ : FP .i64 1) ⟨70⟩ ⟨-15⟩
  (by decide +kernel) (by decide +kernel)

/-- C67: the quotient of non-negative numbers rounded down can be multiplied back, and the product
does not exceed the dividend. -/
theorem C67_multiply_back {cfg : Cfg} (hv : Valid cfg L P) (a b q : FP L P) (ha : 0 ≤ value a)
    (hb : 0 < value b) (h : FP.rdiv cfg a b .floor = .ok q) :
    ∃ p, FP.rmul cfg q b .floor = .ok p ∧ 0 ≤ value p ∧ value p ≤ value a := by
  obtain ⟨h1, _⟩ := C67_remainder_floor hv a b q hb h
  have hq : 0 ≤ value q := by
    have := (C10_rdiv_floor hv a b q hb.ne' h).2 0 (by
      simp only [Int.cast_zero, zero_div]; positivity)
    simpa using this
  have hx := C07_rmul_partial hv q b .floor (by simp)
  have m1 : roundTo P .floor (value q * value b) ≤ value a := by
    have := roundTo_mono P .floor (show value q * value b ≤ value a by linarith)
    rwa [roundTo_value] at this
  have m0 : 0 ≤ roundTo P .floor (value q * value b) := by
    have := roundTo_mono P .floor (show (0 : ℚ) ≤ value q * value b by positivity)
    have z : roundTo P .floor 0 = 0 := by simp [roundTo, Spec.round]
    rwa [z] at this
  have hr : Representable L P (roundTo P .floor (value q * value b)) := by
    unfold roundTo at *
    rw [representable_iff]
    have hp := ten_pow_pos P
    rw [le_div_iff₀ hp, zero_mul] at m0
    unfold value at m1
    rw [div_le_div_iff_of_pos_right hp] at m1
    have f := toInt_fits a.inner
    rw [fits_half] at *
    have g0 : 0 ≤ Spec.round .floor (value q * value b * 10 ^ P) := by exact_mod_cast m0
    have g1 : Spec.round .floor (value q * value b * 10 ^ P) ≤ a.inner.toInt := by
      unfold value; exact_mod_cast m1
    have := half_pos L
    omega
  obtain ⟨p, h2, h3⟩ := hx.1 hr
  exact ⟨p, h2, by rw [h3]; exact m0, by rw [h3]; exact m1⟩

example := C67_multiply_back (cfg := debugCfg) (by decide) (⟨700⟩ : FP .i64 2) ⟨300⟩ ⟨233⟩ (by decide +kernel)
  (by decide +kernel) (by decide +kernel)

example : FP.rdiv debugCfg (⟨10000⟩ : FP .i64 2) ⟨300⟩ .floor = .ok ⟨3333⟩ ∧
    FP.rmul debugCfg (⟨3333⟩ : FP .i64 2) ⟨300⟩ .floor = .ok ⟨9999⟩ := by decide +kernel

/-- The mode that undoes a directed rounding: the same one for a negative factor, the opposite one
for a positive factor. -/
def undo (mode : RoundMode) (b : ℚ) : RoundMode := if 0 < b then flip mode else mode

/-- C67: multiplying by a number of magnitude at least one and dividing by it again with the
rounding undone gives the value back exactly. -/
theorem C67_mul_div {cfg : Cfg} (hv : Valid cfg L P) (a b p : FP L P) (mode : RoundMode)
    (hm : mode ≠ .nearest) (hb : 1 ≤ |value b|) (h : FP.rmul cfg a b mode = .ok p) :
    FP.rdiv cfg p b (undo mode (value b)) = .ok a := by
  have hp := ten_pow_pos P
  have hb0 : value b ≠ 0 := by intro hc; rw [hc] at hb; norm_num at hb
  have hm' : undo mode (value b) ≠ .nearest := by
    unfold undo; cases mode <;> split <;> simp_all [Spec.flip]
  have hpv := ((C07_rmul_partial hv a b mode fun h => absurd h hm).ok_iff p).1 h
  refine ((C10_rdiv_directed hv p b _ hm' hb0).ok_iff a).2 (Eq.symm ?_)
  have e : value p / value b - value a = (value p - value a * value b) / value b := by
    field_simp
  have he := roundTo_error P mode (value a * value b)
  rw [← hpv] at he
  have he' : |value p / value b - value a| < 1 / 10 ^ P := by
    rw [e, abs_div]
    exact lt_of_le_of_lt (div_le_self (abs_nonneg _) hb) he
  rw [abs_lt] at he'
  unfold undo
  cases mode with
  | nearest => exact absurd rfl hm
  | floor =>
    have hle := (roundTo_floor_spec P (value a * value b)).1
    rw [← hpv] at hle
    split
    · rename_i hpos
      refine roundTo_ceil_of a (by linarith [he'.1]) ?_
      rw [div_le_iff₀ hpos]; exact hle
    · rename_i hneg
      have hneg : value b < 0 := lt_of_le_of_ne (not_lt.1 hneg) hb0
      refine roundTo_floor_of a ?_ (by linarith [he'.2])
      rw [le_div_iff_of_neg hneg]; exact hle
  | ceil =>
    have hle := (roundTo_ceil_spec P (value a * value b)).1
    rw [← hpv] at hle
    split
    · rename_i hpos
      refine roundTo_floor_of a ?_ (by linarith [he'.2])
      rw [le_div_iff₀ hpos]; exact hle
    · rename_i hneg
      have hneg : value b < 0 := lt_of_le_of_ne (not_lt.1 hneg) hb0
      refine roundTo_ceil_of a (by linarith [he'.1]) ?_
      rw [div_le_iff_of_neg hneg]; exact hle

example := C67_mul_div (cfg := debugCfg) (by decide) (⟨12345⟩ : FP .i64 2) ⟨-311⟩ ⟨-38393⟩ .floor
  (by decide) (by decide +kernel) (by decide +kernel)

/-- C67: dividing by a number of magnitude at most one and multiplying by it again with the rounding
undone gives the value back exactly. -/
theorem C67_div_mul {cfg : Cfg} (hv : Valid cfg L P) (a b q : FP L P) (mode : RoundMode)
    (hm : mode ≠ .nearest) (hb : |value b| ≤ 1) (h : FP.rdiv cfg a b mode = .ok q) :
    FP.rmul cfg q b (undo mode (value b)) = .ok a := by
  have hp := ten_pow_pos P
  have hb0 := rdiv_ok_ne_zero hv h
  have hm' : undo mode (value b) ≠ .nearest := by
    unfold undo; cases mode <;> split <;> simp_all [Spec.flip]
  have hqv := ((C10_rdiv_directed hv a b mode hm hb0).ok_iff q).1 h
  refine ((C07_rmul_partial hv q b _ fun h => absurd h hm').ok_iff a).2 (Eq.symm ?_)
  have e : value q * value b - value a = (value q - value a / value b) * value b := by
    field_simp
  have he := roundTo_error P mode (value a / value b)
  rw [← hqv] at he
  have he' : |value q * value b - value a| < 1 / 10 ^ P := by
    rw [e, abs_mul]
    exact lt_of_le_of_lt (mul_le_of_le_one_right (abs_nonneg _) hb) he
  rw [abs_lt] at he'
  unfold undo
  cases mode with
  | nearest => exact absurd rfl hm
  | floor =>
    have hle := (roundTo_floor_spec P (value a / value b)).1
    rw [← hqv] at hle
    split
    · rename_i hpos
      refine roundTo_ceil_of a (by linarith [he'.1]) ?_
      rwa [le_div_iff₀ hpos] at hle
    · rename_i hneg
      have hneg : value b < 0 := lt_of_le_of_ne (not_lt.1 hneg) hb0
      refine roundTo_floor_of a ?_ (by linarith [he'.2])
      rwa [le_div_iff_of_neg hneg] at hle
  | ceil =>
    have hle := (roundTo_ceil_spec P (value a / value b)).1
    rw [← hqv] at hle
    split
    · rename_i hpos
      refine roundTo_floor_of a ?_ (by linarith [he'.2])
      rwa [div_le_iff₀ hpos] at hle
    · rename_i hneg
      have hneg : value b < 0 := lt_of_le_of_ne (not_lt.1 hneg) hb0
      refine roundTo_ceil_of a (by linarith [he'.1]) ?_
      rwa [div_le_iff_of_neg hneg] at hle

example := C67_div_mul (cfg := debugCfg) (by decide) (⟨12345⟩ : FP .i64 2) ⟨-31⟩ ⟨-39823⟩ .floor
  (by decide) (by decide +kernel) (by decide +kernel)

/-- C67 for `Nearest`, multiplication first, where both roundings are the nearest (C07, C11).
Missing: the operands for which they are not. -/
theorem C67_mul_div_nearest_partial {cfg : Cfg} (hv : Valid cfg L P) (a b p : FP L P)
    (hs : RmulSafe L P (a.inner.toInt * b.inner.toInt))
    (hn : NearestSafe L (p.inner.toInt * 10 ^ P) b.inner.toInt)
    (hb : 1 ≤ |value b|) (h : FP.rmul cfg a b .nearest = .ok p) :
    FP.rdiv cfg p b .nearest = .ok a := by
  have hp := ten_pow_pos P
  have hb0 : value b ≠ 0 := by intro hc; rw [hc] at hb; norm_num at hb
  have hpv := ((C07_rmul_remainder_partial hv a b .nearest fun _ => hs).ok_iff p).1 h
  refine ((C11_rdiv_nearest_partial hv p b hb0 hn).ok_iff a).2 (Eq.symm ?_)
  have e : value p / value b - value a = (value p - value a * value b) / value b := by
    field_simp
  have he := roundTo_nearest_error P (value a * value b)
  rw [← hpv] at he
  rcases eq_or_lt_of_le hb with h1 | h1
  · -- a factor of one or minus one
    have hr : value p = value a * value b := by
      rcases abs_eq (zero_le_one) |>.1 h1.symm with h2 | h2
      · rw [hpv, h2, mul_one, roundTo_value]
      · rw [hpv, h2, mul_neg, mul_one, roundTo_neg, roundTo_value]
    rw [hr, mul_div_assoc, div_self hb0, mul_one, roundTo_value]
  · refine roundTo_nearest_of a ?_
    rw [e, abs_div, div_lt_iff₀ (by linarith)]
    have : (1 : ℚ) / 2 / 10 ^ P < 1 / 2 / 10 ^ P * |value b| := by
      apply lt_mul_of_one_lt_right (by positivity) h1
    linarith

example := C67_mul_div_nearest_partial (cfg := debugCfg) (by decide) (⟨12345⟩ : FP .i64 2) ⟨-311⟩ ⟨-38393⟩
  (by unfold RmulSafe; decide +kernel) (by unfold NearestSafe; decide +kernel) (by decide +kernel)
  (by decide +kernel)

/-- C67 for `Nearest`, division first; the magnitude of the divisor is below one, or it is one. -/
theorem C67_div_mul_nearest_partial {cfg : Cfg} (hv : Valid cfg L P) (a b q : FP L P)
    (hs : NearestSafe L (a.inner.toInt * 10 ^ P) b.inner.toInt)
    (hn : RmulSafe L P (q.inner.toInt * b.inner.toInt))
    (hb : |value b| ≤ 1) (h : FP.rdiv cfg a b .nearest = .ok q) :
    FP.rmul cfg q b .nearest = .ok a := by
  have hp := ten_pow_pos P
  have hb0 := rdiv_ok_ne_zero hv h
  have hqv := ((C11_rdiv_nearest_partial hv a b hb0 hs).ok_iff q).1 h
  refine ((C07_rmul_remainder_partial hv q b .nearest fun _ => hn).ok_iff a).2 (Eq.symm ?_)
  have e : value q * value b - value a = (value q - value a / value b) * value b := by
    field_simp
  have he := roundTo_nearest_error P (value a / value b)
  rw [← hqv] at he
  rcases eq_or_lt_of_le hb with h1 | h1
  · have hr : value q * value b = value a := by
      rcases abs_eq (zero_le_one) |>.1 h1 with h2 | h2
      · rw [hqv, h2, mul_one, div_one, roundTo_value]
      · rw [hqv, h2, div_neg, div_one, roundTo_neg, roundTo_value]; ring
    rw [hr, roundTo_value]
  · refine roundTo_nearest_of a ?_
    rw [e, abs_mul]
    have h0 : 0 < |value b| := abs_pos.2 hb0
    have : (1 : ℚ) / 2 / 10 ^ P * |value b| < 1 / 2 / 10 ^ P := by
      apply mul_lt_of_lt_one_right (by positivity) h1
    have h3 : |value q - value a / value b| * |value b| ≤ 1 / 2 / 10 ^ P * |value b| :=
      mul_le_mul_of_nonneg_right he h0.le
    linarith

example := C67_div_mul_nearest_partial (cfg := debugCfg) (by decide) (⟨123⟩ : FP .i64 2) ⟨70⟩ ⟨176⟩
  (by unfold NearestSafe; decide +kernel) (by unfold RmulSafe; decide +kernel) (by decide +kernel) (by decide +kernel)

example : FP.rmul debugCfg (⟨12345⟩ : FP .i64 2) ⟨-317⟩ .floor = .ok ⟨-39134⟩ ∧
    undo .floor (value (⟨-317⟩ : FP .i64 2)) = .floor ∧
    FP.rdiv debugCfg (⟨-39134⟩ : FP .i64 2) ⟨-317⟩ .floor = .ok ⟨12345⟩ := by
  refine ⟨by decide +kernel, ?_, by decide +kernel⟩
  have h : value (⟨-317⟩ : FP .i64 2) = -317 / 100 := by
    rw [value_eq _ (-317) (by decide +kernel)]; norm_num
  unfold undo; rw [if_neg (by rw [h]; norm_num)]

example : RmulSafe .i64 2 (12345 * 317) ∧ NearestSafe .i64 (39134 * 10 ^ 2) 317 ∧
    FP.rmul debugCfg (⟨12345⟩ : FP .i64 2) ⟨317⟩ .nearest = .ok ⟨39134⟩ ∧
    FP.rdiv debugCfg (⟨39134⟩ : FP .i64 2) ⟨317⟩ .nearest = .ok ⟨12345⟩ := by
  unfold RmulSafe NearestSafe
  decide +kernel

/-- Outside C67: a factor below one loses digits. -/
theorem C67_outside_domain :
    FP.rmul debugCfg (⟨12345⟩ : FP .i64 2) ⟨10⟩ .floor = .ok ⟨1234⟩ ∧
    FP.rdiv debugCfg (⟨1234⟩ : FP .i64 2) ⟨10⟩ .ceil = .ok ⟨12340⟩ := by decide +kernel

/-- C67 is false for `Nearest` in general, because of C11: `10^-9 · 9000000000.000000001` on
`FixedPoint<i64, U9>` is rounded to `9`, and dividing back panics with overflow checks and gives `0`
without. -/
theorem C67_mul_div_nearest_false :
    FP.rmul debugCfg (⟨1⟩ : FP .i64 9) ⟨9000000000000000001⟩ .nearest = .ok ⟨9000000000⟩ ∧
    FP.rdiv debugCfg (⟨9000000000⟩ : FP .i64 9) ⟨9000000000000000001⟩ .nearest = .panic ∧
    FP.rmul releaseCfg (⟨1⟩ : FP .i64 9) ⟨9000000000000000001⟩ .nearest = .ok ⟨9000000000⟩ ∧
    FP.rdiv releaseCfg (⟨9000000000⟩ : FP .i64 9) ⟨9000000000000000001⟩ .nearest = .ok ⟨0⟩ := by
  decide +kernel

/-! ## C68 -/

theorem isRoundedSqrt_floor {q s : ℚ} (hq : 0 ≤ q) (h : IsRoundedSqrt P .floor q s) :
    0 ≤ s ∧ s * s ≤ q ∧ q < (s + 1 / 10 ^ P) * (s + 1 / 10 ^ P) := by
  obtain ⟨⟨n, hn⟩, h1, h2⟩ := h
  have hp := ten_pow_pos P
  have hpr : (0 : ℝ) < 10 ^ P := by positivity
  have hq' : (0 : ℝ) ≤ (q : ℝ) := by exact_mod_cast hq
  have hr := Real.sqrt_nonneg (q : ℝ)
  have hs : 0 ≤ s := by
    by_contra hc
    have hn0 : n ≤ -1 := by
      have : (n : ℚ) < 0 := by
        by_contra hc'
        apply hc; rw [hn]; exact div_nonneg (not_lt.1 hc') hp.le
      have : n < 0 := by exact_mod_cast this
      omega
    have : s + 1 / 10 ^ P ≤ 0 := by
      rw [hn, ← add_div]
      apply div_nonpos_of_nonpos_of_nonneg _ hp.le
      have : (n : ℚ) ≤ -1 := by exact_mod_cast hn0
      linarith
    have := (Rat.cast_le (K := ℝ)).2 this
    push_cast at this
    linarith
  have hs' : (0 : ℝ) ≤ (s : ℝ) := by exact_mod_cast hs
  have e := Real.mul_self_sqrt hq'
  refine ⟨hs, ?_, ?_⟩
  · have : (s : ℝ) * s ≤ (q : ℝ) := by
      rw [← e]; exact mul_le_mul h1 h1 hs' hr
    exact_mod_cast this
  · have : (q : ℝ) < ((s : ℝ) + 1 / 10 ^ P) * (s + 1 / 10 ^ P) := by
      rw [← e]; exact mul_lt_mul'' h2 h2 hr hr
    rw [← Rat.cast_lt (K := ℝ)]
    push_cast; exact this

theorem isRoundedSqrt_ceil {q s : ℚ} (hq : 0 ≤ q) (h : IsRoundedSqrt P .ceil q s) :
    0 ≤ s ∧ q ≤ s * s := by
  obtain ⟨_, _, h2⟩ := h
  have hq' : (0 : ℝ) ≤ (q : ℝ) := by exact_mod_cast hq
  have hr := Real.sqrt_nonneg (q : ℝ)
  have hs' : (0 : ℝ) ≤ (s : ℝ) := le_trans hr h2
  have e := Real.mul_self_sqrt hq'
  refine ⟨by exact_mod_cast hs', ?_⟩
  have : (q : ℝ) ≤ (s : ℝ) * s := by
    rw [← e]; exact mul_le_mul h2 h2 hr hs'
  exact_mod_cast this

/-- A representable bound from above makes a non-negative `Floor` result representable. -/
theorem representable_floor_of_le {q : ℚ} (x : FP L P) (h0 : 0 ≤ q) (h1 : q ≤ value x) :
    Representable L P (roundTo P .floor q) := by
  have hp := ten_pow_pos P
  have m1 := roundTo_mono P .floor h1
  rw [roundTo_value] at m1
  have m0 : 0 ≤ roundTo P .floor q := by
    have := roundTo_mono P .floor h0
    have z : roundTo P .floor 0 = 0 := by simp [roundTo, Spec.round]
    rwa [z] at this
  unfold roundTo at *
  rw [representable_iff]
  rw [le_div_iff₀ hp, zero_mul] at m0
  unfold value at m1
  rw [div_le_div_iff_of_pos_right hp] at m1
  have f := toInt_fits x.inner
  rw [fits_half] at *
  have g0 : 0 ≤ Spec.round .floor (q * 10 ^ P) := by exact_mod_cast m0
  have g1 : Spec.round .floor (q * 10 ^ P) ≤ x.inner.toInt := by exact_mod_cast m1
  have := half_pos L
  omega

/-- C68: the root rounded down can be squared, the square does not exceed the number, and the number
lies below the square of the next value. -/
theorem C68_square_of_root {cfg : Cfg} (hv : Valid cfg L P) (a s : FP L P)
    (h : FP.rsqrt cfg a .floor = .ok s) :
    (∃ p, FP.rmul cfg s s .floor = .ok p ∧ value p ≤ value a) ∧
      value s * value s ≤ value a ∧
      value a < (value s + value (FP.epsilon : FP L P)) * (value s + value (FP.epsilon : FP L P)) := by
  have ha : 0 ≤ value a := by
    by_contra hc
    rw [(C22_rsqrt_domain hv a .floor).2 (not_le.1 hc)] at h; cases h
  obtain ⟨s', h1, h2⟩ := C22_rsqrt hv a ha .floor
  rw [h] at h1; cases h1
  obtain ⟨h3, h4, h5⟩ := isRoundedSqrt_floor ha h2
  rw [C52_epsilon.1]
  refine ⟨?_, h4, h5⟩
  obtain ⟨p, hp1, hp2⟩ := (C07_rmul_partial hv s s .floor (by simp)).1
    (representable_floor_of_le a (by positivity) h4)
  refine ⟨p, hp1, ?_⟩
  rw [hp2]
  exact le_trans (roundTo_floor_spec P _).1 h4

example := C68_square_of_root (cfg := debugCfg) (by decide) (⟨2000000000⟩ : FP .i64 9) ⟨1414213562⟩
  (by decide +kernel)

/-- C68: the square of the root rounded up is not below the number (or overflows). -/
theorem C68_square_of_root_ceil {cfg : Cfg} (hv : Valid cfg L P) (a s : FP L P)
    (h : FP.rsqrt cfg a .ceil = .ok s) :
    value a ≤ value s * value s ∧
      (FP.rmul cfg s s .ceil = .err .overflow ∨
        ∃ p, FP.rmul cfg s s .ceil = .ok p ∧ value a ≤ value p) := by
  have ha : 0 ≤ value a := by
    by_contra hc
    rw [(C22_rsqrt_domain hv a .ceil).2 (not_le.1 hc)] at h; cases h
  obtain ⟨s', h1, h2⟩ := C22_rsqrt hv a ha .ceil
  rw [h] at h1; cases h1
  obtain ⟨h3, h4⟩ := isRoundedSqrt_ceil ha h2
  refine ⟨h4, ?_⟩
  have hx := C07_rmul_partial hv s s .ceil (by simp)
  by_cases hr : Representable L P (roundTo P .ceil (value s * value s))
  · obtain ⟨p, hp1, hp2⟩ := hx.1 hr
    exact Or.inr ⟨p, hp1, by rw [hp2]; exact le_trans h4 (roundTo_ceil_spec P _).1⟩
  · exact Or.inl (hx.2 hr)

example := C68_square_of_root_ceil (cfg := debugCfg) (by decide) (⟨200⟩ : FP .i64 2) ⟨142⟩ (by decide +kernel)

example : FP.rsqrt debugCfg (⟨200⟩ : FP .i64 2) .floor = .ok ⟨141⟩ ∧
    FP.rmul debugCfg (⟨141⟩ : FP .i64 2) ⟨141⟩ .floor = .ok ⟨198⟩ ∧
    FP.rsqrt debugCfg (⟨200⟩ : FP .i64 2) .ceil = .ok ⟨142⟩ ∧
    FP.rmul debugCfg (⟨142⟩ : FP .i64 2) ⟨142⟩ .ceil = .ok ⟨202⟩ := by decide +kernel

/-- Outside C68: the square of the root rounded up can overflow. -/
theorem C68_outside_domain :
    FP.rsqrt debugCfg (FP.max : FP .i64 9) .ceil = .ok ⟨96038388349945⟩ ∧
    FP.rmul debugCfg (⟨96038388349945⟩ : FP .i64 9) ⟨96038388349945⟩ .ceil = .err .overflow := by
  decide +kernel

/-- C68: squaring a number above one half with `Floor` and taking the root with `Ceil` gives the
absolute value back exactly. -/
theorem C68_root_of_square {cfg : Cfg} (hv : Valid cfg L P) (x y p : FP L P)
    (hx : 1 / 2 < |value x|) (hy : value y = |value x|) (h : FP.rmul cfg x x .floor = .ok p) :
    FP.rsqrt cfg p .ceil = .ok y := by
  have hp := ten_pow_pos P
  have hpr : (0 : ℝ) < 10 ^ P := by positivity
  have hpv := ((C07_rmul_partial hv x x .floor (by simp)).ok_iff p).1 h
  have hsq : value x * value x = value y * value y := by rw [hy, abs_mul_abs_self]
  have hle := (roundTo_floor_spec P (value x * value x)).1
  have he := abs_lt.1 (roundTo_error P .floor (value x * value x))
  have hp0 : 0 ≤ value p := by
    rw [hpv]
    have := roundTo_mono P .floor (mul_self_nonneg (value x))
    have z : roundTo P .floor 0 = 0 := by simp [roundTo, Spec.round]
    rwa [z] at this
  rw [← hpv, hsq] at he hle
  -- `value y ≥ 1/2 + 1/2 ulp`, since it is a multiple of one unit above one half
  have hyr : 1 / 2 < value y := by rw [hy]; exact hx
  have hy2 : 1 / 2 + 1 / 2 / 10 ^ P ≤ value y := by
    have e : value y = (y.inner.toInt : ℚ) / 10 ^ P := rfl
    rw [e, lt_div_iff₀ hp] at hyr
    rw [e, le_div_iff₀ hp]
    have e2 : (1 / 2 + 1 / 2 / 10 ^ P : ℚ) * 10 ^ P = 1 / 2 * 10 ^ P + 1 / 2 := by field_simp
    rw [e2]
    have h1 : ((10 ^ P : Int) : ℚ) < ((2 * y.inner.toInt : Int) : ℚ) := by push_cast; linarith
    have h2 : (10 : Int) ^ P + 1 ≤ 2 * y.inner.toInt := by exact_mod_cast h1
    have h3 : (((10 : Int) ^ P + 1 : Int) : ℚ) ≤ ((2 * y.inner.toInt : Int) : ℚ) := by
      exact_mod_cast h2
    push_cast at h3; linarith
  obtain ⟨s, h1, h2⟩ := C22_rsqrt hv p hp0 .ceil
  rw [h1]
  congr 1
  apply value_inj
  refine C22_unique P .ceil (value p) _ _ h2 ⟨⟨y.inner.toInt, rfl⟩, ?_, ?_⟩
  · have hlow : (value y - 1 / 10 ^ P) * (value y - 1 / 10 ^ P) < value p := by
      have hu : (0 : ℚ) < 1 / 10 ^ P := by positivity
      have hk : (1 : ℚ) / 2 / 10 ^ P = 1 / 10 ^ P / 2 := by ring
      rw [hk] at hy2
      generalize (1 : ℚ) / 10 ^ P = u at *
      nlinarith [he.1, mul_le_mul_of_nonneg_left hy2 hu.le]
    have hlow' : ((value y : ℝ) - 1 / 10 ^ P) * ((value y : ℝ) - 1 / 10 ^ P) < (value p : ℝ) := by
      have := (Rat.cast_lt (K := ℝ)).2 hlow
      push_cast at this; exact this
    exact Real.lt_sqrt_of_sq_lt (by rw [pow_two]; exact hlow')
  · have hup : (value p : ℝ) ≤ (value y : ℝ) * value y := by exact_mod_cast hle
    rw [Real.sqrt_le_left (by exact_mod_cast le_trans (by norm_num) hyr.le), pow_two]
    exact hup

example := C68_root_of_square (cfg := debugCfg) (by decide) (⟨-7123⟩ : FP .i64 4) ⟨7123⟩ ⟨5073⟩ (by decide +kernel)
  (by decide +kernel) (by decide +kernel)

example : FP.rmul debugCfg (⟨-7123⟩ : FP .i64 4) ⟨-7123⟩ .floor = .ok ⟨5073⟩ ∧
    FP.rsqrt debugCfg (⟨5073⟩ : FP .i64 4) .ceil = .ok ⟨7123⟩ := by decide +kernel

/-- Outside C68: below one half digits are lost. -/
theorem C68_small_outside_domain :
    FP.rmul debugCfg (⟨123⟩ : FP .i64 4) ⟨123⟩ .floor = .ok ⟨1⟩ ∧
    FP.rsqrt debugCfg (⟨1⟩ : FP .i64 4) .ceil = .ok ⟨100⟩ := by decide +kernel

end Fixnum
