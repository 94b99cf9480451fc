import Verif.Props.Decimal
import Verif.Props.Integral
import Verif.Props.Sqrt

/-! # Property C82: rounding what is already round changes nothing -/

namespace Fixnum

open Res Spec

variable {L : Layout} {P : Nat} {ε : Type}

/-- Of an integral value nothing is cut off. -/
theorem fraction_zero (x : FP L P) {z : Int} (hz : value x = z) : x.inner.toInt.tmod (10 ^ P) = 0 := by
  have t := ten_pow_ne P
  unfold value at hz
  rw [div_eq_iff t] at hz
  have : x.inner.toInt = z * 10 ^ P := by exact_mod_cast hz
  rw [this, Int.mul_tmod_left]

/-- C82: an integral value, other than `MIN`, is returned as it is. -/
theorem C82_integral_values {cfg : Cfg} (hv : Valid cfg L P) (x : FP L P) (z : Int)
    (hz : value x = z) (hm : value x ≠ minValue L P) :
    (FP.floor cfg x : Res ε _) = .ok x ∧ (FP.ceil cfg x : Res ε _) = .ok x ∧
    (FP.round cfg x : Res ε _) = .ok x ∧
    ∀ mode, ∃ i, (FP.integral cfg x mode : Res ε _) = .ok i ∧ i.toInt = z := by
  have h0 := fraction_zero x hz
  have hr : 2 * |x.inner.toInt.tmod (10 ^ P)| ≤ rawMax L := by
    rw [h0]; have := half_pos L; rw [rawMax_half]; simp; omega
  have key {r : Res ε (FP L P)} {q : ℚ} (h : ExactOrPanic r q) (hq : q = value x) : r = .ok x := by
    obtain ⟨c, hc, ec⟩ := h.1 ⟨x, hq.symm⟩
    rw [hc, value_inj (ec.trans hq)]
  refine ⟨key (C19_floor hv x hm) (by rw [hz, Int.floor_intCast]),
    key (C19_ceil hv x hm) (by rw [hz, Int.ceil_intCast]),
    key (C19_round_partial hv x hm hr) ?_, fun mode => ?_⟩
  · rw [hz]; exact_mod_cast round_int .nearest z
  · obtain ⟨i, hi, ei⟩ := C18_integral_partial (ε := ε) hv x mode hm fun _ => hr
    exact ⟨i, hi, by rw [ei, hz, round_int]⟩

example := C82_integral_values (ε := Unit) (cfg := debugCfg) (by decide) (⟨-12400⟩ : FP .i64 2) (-124)
  (by decide +kernel) (by decide +kernel)

/-- C82: `floor`, `ceil` and `round` return integral values, in every build. -/
theorem C82_results_integral {cfg : Cfg} (hv : Valid cfg L P) (x r : FP L P)
    (h : (FP.floor cfg x : Res ε _) = .ok r ∨ (FP.ceil cfg x : Res ε _) = .ok r ∨
      (FP.round cfg x : Res ε _) = .ok r) : ∃ z : Int, value r = z := by
  have key {s : Res ε (FP L P)} {z : Int} (hs : ExactOrPanic s (z : ℚ)) (e : s = .ok r) :
      ∃ z : Int, value r = z := by
    by_cases hr : Representable L P (z : ℚ)
    · obtain ⟨c, hc, ec⟩ := hs.1 hr
      rw [hc] at e; cases e; exact ⟨z, ec⟩
    · rw [hs.2 hr] at e; cases e
  by_cases hm : value x = minValue L P
  · have hx : x = FP.min := value_inj (by rw [hm]; unfold value minValue; rw [min_toInt])
    subst hx
    cases ho : cfg.overflowChecks
    · obtain ⟨c, ec, h1, h2, h3⟩ := C19_min_wrapped (ε := ε) (P := P) hv ho
      rw [h1, h2, h3] at h
      rcases h with h | h | h <;> cases h <;> exact ⟨_, ec⟩
    · have h1 := C19_floor_ceil_min (ε := ε) (P := P) hv ho
      have h2 := C19_round_panics (ε := ε) hv ho (FP.min : FP L P) (.inl hm)
      rw [h1.1, h1.2, h2] at h
      rcases h with h | h | h <;> cases h
  · rcases h with h | h | h
    · exact key (C19_floor hv x hm) h
    · exact key (C19_ceil hv x hm) h
    · by_cases hn : 2 * |x.inner.toInt.tmod (10 ^ P)| ≤ rawMax L
      · exact key (C19_round_partial hv x hm hn) h
      · cases ho : cfg.overflowChecks
        · obtain ⟨c, hc, ec⟩ := C19_round_wrapped (ε := ε) hv ho x (.inr (not_le.1 hn))
          rw [hc] at h; cases h; exact ⟨_, ec⟩
        · rw [C19_round_panics hv ho x (.inr (not_le.1 hn))] at h; cases h

example := C82_results_integral (ε := Unit) (cfg := debugCfg) (by decide) (⟨-12345⟩ : FP .i64 2) ⟨-12400⟩
  (.inl (by decide +kernel))

/-- C82: so doing it twice is doing it once (`MIN` aside, which panics or is not a result). -/
theorem C82_floor_twice {cfg : Cfg} (hv : Valid cfg L P) (x r : FP L P)
    (h : (FP.floor cfg x : Res ε _) = .ok r ∨ (FP.ceil cfg x : Res ε _) = .ok r ∨
      (FP.round cfg x : Res ε _) = .ok r) (hm : value r ≠ minValue L P) :
    (FP.floor cfg r : Res ε _) = .ok r ∧ (FP.ceil cfg r : Res ε _) = .ok r ∧
      (FP.round cfg r : Res ε _) = .ok r := by
  obtain ⟨z, hz⟩ := C82_results_integral hv x r h
  obtain ⟨h1, h2, h3, -⟩ := C82_integral_values (ε := ε) hv r z hz hm
  exact ⟨h1, h2, h3⟩

example := C82_floor_twice (ε := Unit) (cfg := debugCfg) (by decide) (⟨-12345⟩ : FP .i64 2) ⟨-12300⟩
  (.inr (.inl (by decide +kernel))) (by decide +kernel)

/-- Truncated division in two steps. -/
theorem tdiv_steps (x k : Int) {p : Int} (hp : p ≠ 0) :
    (x.tdiv p * p).tdiv (k * p) = x.tdiv (k * p) := by
  have key (a b c : Nat) (hb : b ≠ 0) :
      ((a : Int).tdiv b * b).tdiv (c * b) = (a : Int).tdiv (c * b) := by
    rw [← Int.ofNat_tdiv]
    norm_cast
    rw [← Int.ofNat_tdiv, ← Int.ofNat_tdiv, Nat.mul_div_mul_right _ _ (Nat.pos_of_ne_zero hb),
      Nat.div_div_eq_div_mul, Nat.mul_comm b]
  obtain ⟨a, rfl | rfl⟩ := Int.eq_nat_or_neg x <;> obtain ⟨b, rfl | rfl⟩ := Int.eq_nat_or_neg p <;>
  obtain ⟨c, rfl | rfl⟩ := Int.eq_nat_or_neg k <;>
  · have := key a b c (by omega)
    simp only [Int.neg_tdiv, Int.tdiv_neg, neg_mul, mul_neg, neg_neg, this]

/-- C82: truncating to multiples of `p` and then to multiples of `k * p` is truncating to multiples
of `k * p` at once; in particular doing it twice changes nothing. -/
theorem C82_round_towards_zero (x p p' : FP L P) (k : Int) (hk : value p' = k * value p) :
    FP.roundTowardsZeroBy (FP.roundTowardsZeroBy x p) p' =
      (if value p' = 0 then FP.roundTowardsZeroBy x p else FP.roundTowardsZeroBy x p') := by
  split
  · rename_i h; exact C20_zero _ _ h
  · rename_i h
    have hp' : p'.inner.toInt ≠ 0 := by rwa [value_eq_zero_iff] at h
    have hp0 : value p ≠ 0 := by rintro h0; apply h; rw [hk, h0, mul_zero]
    have hp : p.inner.toInt ≠ 0 := by rwa [Ne, value_eq_zero_iff] at hp0
    have hk' : p'.inner.toInt = k * p.inner.toInt := by
      have t := ten_pow_ne P
      unfold value at hk
      rw [← mul_div_assoc, div_left_inj' t] at hk
      exact_mod_cast hk
    have e1 := roundTowardsZeroBy_toInt x p hp
    have e2 := roundTowardsZeroBy_toInt (FP.roundTowardsZeroBy x p) p' hp'
    have e3 := roundTowardsZeroBy_toInt x p' hp'
    rw [e1] at e2
    have e4 : (FP.roundTowardsZeroBy (FP.roundTowardsZeroBy x p) p').inner.toInt =
        (FP.roundTowardsZeroBy x p').inner.toInt := by
      rw [e2, e3, hk', tdiv_steps _ _ hp]
    apply value_inj
    unfold value
    rw [e4]

example := C82_round_towards_zero (⟨-12345⟩ : FP .i64 2) ⟨10⟩ ⟨-100⟩ (-10) (by decide +kernel)

/-- C82: the next power of ten of a power of ten is itself. -/
theorem C82_next_power (a b : FP L P) (h : FP.nextPowerOfTen a = .ok b) :
    FP.nextPowerOfTen b = .ok b := by
  have self {q r : ℚ} (hr : IsNextPowerOfTen P q r) : IsNextPowerOfTen P r r :=
    ⟨hr.1, le_refl _, fun _ hk => hk⟩
  have pos {q r : ℚ} (hr : IsNextPowerOfTen P q r) : 0 < r := by
    obtain ⟨⟨k, rfl⟩, -⟩ := hr; positivity
  rcases le_or_gt 0 (value a) with h0 | h0
  · obtain ⟨r, hr, -⟩ := C21_next_exists P (value a)
    have e := ((C21_next_power_nonneg a h0 r hr).ok_iff b).1 h
    have p := pos hr
    rw [((C21_next_power_nonneg b (by rw [e]; exact p.le) r (by rw [e]; exact self hr)).ok_iff b).2 e]
  · obtain ⟨r, hr, -⟩ := C21_next_exists P (-value a)
    have e := ((C21_next_power_neg a h0 r hr).ok_iff b).1 h
    have p := pos hr
    rw [((C21_next_power_neg b (by rw [e]; linarith) r
      (by rw [e, neg_neg]; exact self hr)).ok_iff b).2 e]

example := C82_next_power (⟨-12345⟩ : FP .i64 2) ⟨-100000⟩ (by decide +kernel)

/-- C82: it is less than ten times the number. -/
theorem C82_next_power_bound (a b : FP L P) (h : FP.nextPowerOfTen a = .ok b) (h0 : value a ≠ 0) :
    |value a| ≤ |value b| ∧ |value b| < 10 * |value a| := by
  have t := ten_pow_pos P
  have key {q r : ℚ} (z : Int) (hz : q = z / 10 ^ P) (hq : 0 < q) (hr : IsNextPowerOfTen P q r) :
      q ≤ r ∧ r < 10 * q := by
    obtain ⟨⟨k, e⟩, h1, h2⟩ := hr
    refine ⟨h1, ?_⟩
    rcases k with _ | k
    · have hz1 : (1 : Int) ≤ z := by
        rw [hz] at hq
        have := (div_pos_iff_of_pos_right t).1 hq
        exact_mod_cast this
      have : (1 : ℚ) / 10 ^ P ≤ z / 10 ^ P := by
        rw [div_le_div_iff_of_pos_right t]; exact_mod_cast hz1
      rw [e, pow_zero]; rw [← hz] at this; linarith
    · by_contra hge
      have hle : q ≤ 10 ^ k / 10 ^ P := by
        have : r = 10 * (10 ^ k / 10 ^ P) := by rw [e, pow_succ]; ring
        linarith
      have h3 := h2 k hle
      rw [e, div_le_div_iff_of_pos_right t, pow_succ] at h3
      have : (0 : ℚ) < 10 ^ k := by positivity
      linarith
  rcases lt_or_gt_of_ne h0 with hn | hp
  · obtain ⟨r, hr, -⟩ := C21_next_exists P (-value a)
    have e := ((C21_next_power_neg a hn r hr).ok_iff b).1 h
    obtain ⟨h1, h2⟩ := key (-a.inner.toInt) (by unfold value; push_cast; ring) (by linarith) hr
    rw [e, abs_neg, abs_of_neg hn, abs_of_pos (by linarith)]
    exact ⟨h1, h2⟩
  · obtain ⟨r, hr, -⟩ := C21_next_exists P (value a)
    have e := ((C21_next_power_nonneg a hp.le r hr).ok_iff b).1 h
    obtain ⟨h1, h2⟩ := key a.inner.toInt rfl hp hr
    rw [e, abs_of_pos hp, abs_of_pos (by linarith)]
    exact ⟨h1, h2⟩

example := C82_next_power_bound (⟨-12345⟩ : FP .i64 2) ⟨-100000⟩ (by decide +kernel) (by decide +kernel)

/-- C82: the mean of a number and itself is that number, `abs` of `abs` is `abs`, and negation is
its own inverse. -/
theorem C82_fixed (cfg : Cfg) (x : FP L P) (mode : RoundMode) :
    (FP.halfSum cfg x x mode : Res ε _) = .ok x ∧
    (∀ y, FP.abs x = .ok y → FP.abs y = .ok y) ∧
    (∀ y, FP.cneg x = .ok y → FP.cneg y = .ok x) := by
  refine ⟨?_, fun y hy => ?_, fun y hy => ?_⟩
  · have : ∃ r, (FP.halfSum cfg x x mode : Res ε (FP L P)) = .ok r := by
      by_cases hm : mode = .nearest
      · subst hm; obtain ⟨r, hr, -⟩ := C16_half_sum_nearest (ε := ε) cfg x x; exact ⟨r, hr⟩
      · obtain ⟨r, hr, -⟩ := C16_half_sum_directed (ε := ε) cfg x x mode hm; exact ⟨r, hr⟩
    obtain ⟨r, hr⟩ := this
    obtain ⟨h1, h2⟩ := C16_half_sum_between (ε := ε) cfg x x r mode hr
    rw [min_self] at h1
    rw [max_self] at h2
    rw [hr, value_inj (le_antisymm h2 h1)]
  · have e := ((C04_abs_exact x).ok_iff y).1 hy
    exact ((C04_abs_exact y).ok_iff y).2 (by rw [e, abs_abs])
  · have e := ((C04_cneg_exact x).ok_iff y).1 hy
    exact ((C04_cneg_exact y).ok_iff x).2 (by rw [e, neg_neg])

example : (FP.floor debugCfg (⟨-12345⟩ : FP .i64 2) : Res Unit _) = .ok ⟨-12400⟩ ∧
    (FP.floor debugCfg (⟨-12400⟩ : FP .i64 2) : Res Unit _) = .ok ⟨-12400⟩ ∧
    FP.roundTowardsZeroBy (⟨-12345⟩ : FP .i64 2) ⟨10⟩ = ⟨-12340⟩ ∧
    FP.roundTowardsZeroBy (⟨-12340⟩ : FP .i64 2) ⟨100⟩ = ⟨-12300⟩ ∧
    FP.nextPowerOfTen (⟨-12345⟩ : FP .i64 2) = .ok ⟨-100000⟩ ∧
    FP.nextPowerOfTen (⟨-100000⟩ : FP .i64 2) = .ok ⟨-100000⟩ := by
  decide +kernel

end Fixnum
