import Verif.Props.Programs
import Verif.Props.Printing
import Verif.Props.Decimal
import Verif.Props.FloatOrder
import Verif.Props.ToFloat
import Verif.LiteralBasic

/-!
# Property C80: a wider layout computes the same

`FixedPoint<L, P>` and `FixedPoint<L', P>` with `L'` wider than `L`, on operands denoting the same
numbers.  The two may be used in different builds (`cfg`, `cfg'`).
-/

namespace Fixnum

open Res Spec

variable {L L' : Layout} {P : Nat} {ε : Type}

/-- How the outcome `r` in the narrow layout relates to the outcome `r'` in the wide one: a result is
the same number, an error in the wide one is the same error in the narrow one, and the narrow one has
no further errors except for numbers out of its range.  (A panic in the narrow one is not excluded.) -/
structure Widens (r : Res ε (FP L P)) (r' : Res ε (FP L' P)) : Prop where
  ok : ∀ x, r = .ok x → ∃ y, r' = .ok y ∧ value y = value x
  err : ∀ e, r' = .err e → r = .err e
  range : ∀ e, r = .err e → r' = .err e ∨ ∃ y, r' = .ok y ∧ ¬ Representable L P (value y)

theorem layout_step (h : L.bits < L'.bits) : L.bits + 16 ≤ L'.bits := by
  cases L <;> cases L' <;> simp [Layout.bits] at *

theorem pow_step (h : L.bits < L'.bits) :
    (2 : Int) ^ (L.bits - 1) * 65536 ≤ 2 ^ (L'.bits - 1) ∧ (1 : Int) ≤ 2 ^ (L.bits - 1) := by
  have h1 := layout_step h
  have h2 : 1 ≤ L.bits := by cases L <;> simp [Layout.bits]
  refine ⟨?_, one_le_pow₀ (by norm_num)⟩
  rw [show (65536 : Int) = 2 ^ 16 by norm_num, ← pow_add]
  exact pow_le_pow_right₀ (by norm_num) (by omega)

theorem fits_widen (h : L.bits < L'.bits) {z : Int} (hz : Fits L.bits z) : Fits L'.bits z := by
  have := pow_step h
  unfold Fits iMin iMax at *
  omega

theorem representable_widen (h : L.bits < L'.bits) {q : ℚ} (hq : Representable L P q) :
    Representable L' P q := by
  obtain ⟨c, rfl⟩ := hq
  have := (representable_iff (L := L) (P := P) c.inner.toInt).1 ⟨c, rfl⟩
  exact (representable_iff (L := L') (P := P) c.inner.toInt).2 (fits_widen h this)

theorem widens_exact (h : L.bits < L'.bits) {e : ε} {r : Res ε (FP L P)} {r' : Res ε (FP L' P)}
    {q : ℚ} (h1 : ExactOr e r q) (h2 : ExactOr e r' q) : Widens r r' := by
  refine ⟨fun x hx => ?_, fun d hd => ?_, fun d hd => ?_⟩
  · have e1 := (h1.ok_iff x).1 hx
    obtain ⟨y, hy, ey⟩ := h2.1 (representable_widen h ⟨x, e1⟩)
    exact ⟨y, hy, ey.trans e1.symm⟩
  · have n2 := h2.err_iff.1 ⟨d, hd⟩
    have n1 : ¬ Representable L P q := fun hr => n2 (representable_widen h hr)
    rw [h2.2 n2] at hd
    rw [h1.2 n1]; cases hd; rfl
  · have n1 := h1.err_iff.1 ⟨d, hd⟩
    rw [h1.2 n1] at hd
    by_cases hr : Representable L' P q
    · obtain ⟨y, hy, ey⟩ := h2.1 hr
      exact .inr ⟨y, hy, by rw [ey]; exact n1⟩
    · rw [h2.2 hr]; cases hd; exact .inl rfl

theorem widens_err {e : ε} {r : Res ε (FP L P)} {r' : Res ε (FP L' P)} (h1 : r = .err e)
    (h2 : r' = .err e) : Widens r r' := by
  subst h1 h2
  exact ⟨fun x hx => (by cases hx), fun d hd => (by cases hd; rfl), fun d hd => .inl (by cases hd; rfl)⟩

theorem widens_panic {r : Res ε (FP L P)} {r' : Res ε (FP L' P)} {y : FP L' P} (h1 : r = .panic)
    (h2 : r' = .ok y) : Widens r r' := by
  subst h1 h2
  exact ⟨fun x hx => (by cases hx), fun d hd => (by cases hd), fun d hd => (by cases hd)⟩

theorem widens_ok {r : Res ε (FP L P)} {r' : Res ε (FP L' P)} {x : FP L P} {y : FP L' P}
    (h1 : r = .ok x) (h2 : r' = .ok y) (h : value y = value x) : Widens r r' := by
  subst h1 h2
  exact ⟨fun z hz => (by cases hz; exact ⟨y, rfl, h⟩), fun d hd => (by cases hd),
    fun d hd => (by cases hd)⟩

theorem same_raw {x : FP L P} {y : FP L' P} (h : value y = value x) :
    y.inner.toInt = x.inner.toInt := by
  unfold value at h
  rw [div_left_inj' (ten_pow_ne P)] at h
  exact_mod_cast h

theorem abs_raw (x : FP L P) : |x.inner.toInt| ≤ 2 ^ (L.bits - 1) := by
  have h := toInt_fits x.inner
  unfold Fits iMin iMax at h
  rw [abs_le]; omega

theorem abs_int (n : BitVec L.bits) : |n.toInt| ≤ 2 ^ (L.bits - 1) := by
  have h := toInt_fits n
  unfold Fits iMin iMax at h
  rw [abs_le]; omega

theorem not_i128 (h : L.bits < L'.bits) : L ≠ .i128 := by
  rintro rfl; cases L' <;> simp [Layout.bits] at h

theorem not_38 {cfg : Cfg} (h : L.bits < L'.bits) (hv : Valid cfg L P) : P ≠ 38 := by
  rintro rfl
  have h1 := hv.1
  have : rawMax L < 10 ^ 38 := by
    have h2 := not_i128 h
    cases L <;> first | exact absurd rfl h2 | decide +kernel
  omega

/-! ## Exact operations -/

/-- C80: the exact operations. -/
theorem C80_cadd (h : L.bits < L'.bits) {a b : FP L P} {a' b' : FP L' P} (ha : value a' = value a)
    (hb : value b' = value b) : Widens (FP.cadd a b) (FP.cadd a' b') := by
  have h2 := C01_cadd_exact a' b'
  rw [ha, hb] at h2
  exact widens_exact h (C01_cadd_exact a b) h2

example := C80_cadd (by decide) (a := (⟨-1500000007⟩ : FP .i64 9)) (a' := (⟨-1500000007⟩ : FP .i128 9))
  (b := ⟨2500000001⟩) (b' := ⟨2500000001⟩) (by decide +kernel) (by decide +kernel)

theorem C80_csub (h : L.bits < L'.bits) {a b : FP L P} {a' b' : FP L' P} (ha : value a' = value a)
    (hb : value b' = value b) : Widens (FP.csub a b) (FP.csub a' b') := by
  have h2 := C02_csub_exact a' b'
  rw [ha, hb] at h2
  exact widens_exact h (C02_csub_exact a b) h2

example := C80_csub (by decide) (a := (⟨-1500000007⟩ : FP .i64 9)) (a' := (⟨-1500000007⟩ : FP .i128 9))
  (b := ⟨2500000001⟩) (b' := ⟨2500000001⟩) (by decide +kernel) (by decide +kernel)

theorem C80_cmul (h : L.bits < L'.bits) {a : FP L P} {a' : FP L' P} (ha : value a' = value a)
    {n : BitVec L.bits} {n' : BitVec L'.bits} (hn : n'.toInt = n.toInt) :
    Widens (FP.cmul a n) (FP.cmul a' n') := by
  have h2 := C03_cmul_exact a' n'
  rw [ha, hn] at h2
  exact widens_exact h (C03_cmul_exact a n) h2

example := C80_cmul (by decide) (a := (⟨-1500000007⟩ : FP .i64 9)) (a' := (⟨-1500000007⟩ : FP .i128 9))
  (by decide +kernel) (n := -7) (n' := -7) (by decide +kernel)

theorem C80_cneg (h : L.bits < L'.bits) {a : FP L P} {a' : FP L' P} (ha : value a' = value a) :
    Widens (FP.cneg a) (FP.cneg a') := by
  have h2 := C04_cneg_exact a'
  rw [ha] at h2
  exact widens_exact h (C04_cneg_exact a) h2

example := C80_cneg (by decide) (a := (⟨-1500000007⟩ : FP .i64 9)) (a' := (⟨-1500000007⟩ : FP .i128 9))
  (by decide +kernel)

theorem C80_abs (h : L.bits < L'.bits) {a : FP L P} {a' : FP L' P} (ha : value a' = value a) :
    Widens (FP.abs a) (FP.abs a') := by
  have h2 := C04_abs_exact a'
  rw [ha] at h2
  exact widens_exact h (C04_abs_exact a) h2

example := C80_abs (by decide) (a := (⟨-1500000007⟩ : FP .i64 9)) (a' := (⟨-1500000007⟩ : FP .i128 9))
  (by decide +kernel)

theorem C80_next_power (h : L.bits < L'.bits) {a : FP L P} {a' : FP L' P} (ha : value a' = value a) :
    Widens (FP.nextPowerOfTen a) (FP.nextPowerOfTen a') := by
  rcases le_or_gt 0 (value a) with h0 | h0
  · obtain ⟨r, hr, -⟩ := C21_next_exists P (value a)
    exact widens_exact h (C21_next_power_nonneg a h0 r hr)
      (C21_next_power_nonneg a' (by rw [ha]; exact h0) r (by rw [ha]; exact hr))
  · obtain ⟨r, hr, -⟩ := C21_next_exists P (-value a)
    exact widens_exact h (C21_next_power_neg a h0 r hr)
      (C21_next_power_neg a' (by rw [ha]; exact h0) r (by rw [ha]; exact hr))

example := C80_next_power (by decide) (a := (⟨-1500000007⟩ : FP .i64 9)) (a' := (⟨-1500000007⟩ : FP .i128 9))
  (by decide +kernel)

theorem C80_try_from_int {cfg cfg' : Cfg} (h : L.bits < L'.bits) (hv : Valid cfg L P)
    (hv' : Valid cfg' L' P) (n : Int) :
    Widens (FP.tryFromInt cfg n : Res ConvErr (FP L P))
      (FP.tryFromInt cfg' n : Res ConvErr (FP L' P)) :=
  widens_exact h (C27_try_from_int hv n) (C27_try_from_int hv' n)

example := C80_try_from_int (L := .i64) (L' := .i128) (P := 9) (cfg := debugCfg) (cfg' := releaseCfg)
  (by decide) (by decide) (by decide) 9223372037

/-- Clamping to the wide range first changes nothing. -/
theorem clamp_clamp (h : L.bits < L'.bits) (q : ℚ) : clamp L P (clamp L' P q) = clamp L P q := by
  have hp := pow_step h
  have t := ten_pow_pos P
  have i1 : rawMin L' ≤ rawMin L := by unfold rawMin; omega
  have i2 : rawMax L ≤ rawMax L' := by unfold rawMax; omega
  have i3 : rawMin L ≤ rawMax L := by unfold rawMin rawMax; omega
  have h1 : minValue L' P ≤ minValue L P := by
    unfold minValue
    rw [div_le_div_iff_of_pos_right t]; exact_mod_cast i1
  have h2 : maxValue L P ≤ maxValue L' P := by
    unfold maxValue
    rw [div_le_div_iff_of_pos_right t]; exact_mod_cast i2
  have h3 : minValue L P ≤ maxValue L P := by
    unfold minValue maxValue
    rw [div_le_div_iff_of_pos_right t]; exact_mod_cast i3
  unfold clamp
  clear hp t i1 i2 i3
  grind

/-- C80: the saturating operations of the narrow layout clamp the results of the wide one. -/
theorem C80_saturating (h : L.bits < L'.bits) {a b : FP L P} {a' b' : FP L' P}
    (ha : value a' = value a) (hb : value b' = value b) {n : BitVec L.bits} {n' : BitVec L'.bits}
    (hn : n'.toInt = n.toInt) :
    value (FP.saturatingAdd a b) = clamp L P (value (FP.saturatingAdd a' b')) ∧
    value (FP.saturatingSub a b) = clamp L P (value (FP.saturatingSub a' b')) ∧
    value (FP.saturatingMul a n) = clamp L P (value (FP.saturatingMul a' n')) := by
  rw [C05_saturating_add, C05_saturating_add, C05_saturating_sub, C05_saturating_sub,
    C06_saturating_mul, C06_saturating_mul, ha, hb, hn]
  exact ⟨(clamp_clamp h _).symm, (clamp_clamp h _).symm, (clamp_clamp h _).symm⟩

example := C80_saturating (by decide) (a := (⟨-1500000007⟩ : FP .i64 9)) (a' := (⟨-1500000007⟩ : FP .i128 9))
  (b := ⟨2500000001⟩) (b' := ⟨2500000001⟩) (by decide +kernel) (by decide +kernel) (n := -7) (n' := -7) (by decide +kernel)

theorem C80_saturating_rmul {cfg cfg' : Cfg} (h : L.bits < L'.bits) (hv : Valid cfg L P)
    (hv' : Valid cfg' L' P) {a b : FP L P} {a' b' : FP L' P} (ha : value a' = value a)
    (hb : value b' = value b) (mode : RoundMode) :
    ∃ x y, (FP.saturatingRmul cfg a b mode : Res ε _) = .ok x ∧
      (FP.saturatingRmul cfg' a' b' mode : Res ε _) = .ok y ∧ value x = clamp L P (value y) := by
  have h38 := not_38 h hv
  obtain ⟨x, hx, ex⟩ := C09_saturating_rmul_types_partial (ε := ε) hv a b mode fun _ hc => h38 hc.2
  obtain ⟨y, hy, ey⟩ :=
    C09_saturating_rmul_types_partial (ε := ε) hv' a' b' mode fun _ hc => h38 hc.2
  exact ⟨x, y, hx, hy, by rw [ex, ey, ha, hb, clamp_clamp h]⟩

example := C80_saturating_rmul (ε := Unit) (cfg := debugCfg) (cfg' := releaseCfg) (by decide)
  (by decide) (by decide) (a := (⟨-1500000007⟩ : FP .i64 9)) (a' := (⟨-1500000007⟩ : FP .i128 9))
  (b := ⟨2500000001⟩) (b' := ⟨2500000001⟩) (by decide +kernel) (by decide +kernel) .ceil

/-! ## Rounding operations -/

theorem C80_rmul {cfg cfg' : Cfg} (h : L.bits < L'.bits) (hv : Valid cfg L P) (hv' : Valid cfg' L' P)
    {a b : FP L P} {a' b' : FP L' P} (ha : value a' = value a) (hb : value b' = value b)
    (mode : RoundMode) : Widens (FP.rmul cfg a b mode) (FP.rmul cfg' a' b' mode) := by
  have h2 := C07_rmul_partial hv' a' b' mode fun _ hc => not_38 h hv hc.2
  rw [ha, hb] at h2
  exact widens_exact h (C07_rmul_partial hv a b mode fun _ hc => not_38 h hv hc.2) h2

example := C80_rmul (cfg := debugCfg) (cfg' := releaseCfg) (by decide) (by decide) (by decide)
  (a := (⟨-1500000007⟩ : FP .i64 9)) (a' := (⟨-1500000007⟩ : FP .i128 9))
  (b := ⟨2500000001⟩) (b' := ⟨2500000001⟩) (by decide +kernel) (by decide +kernel) .ceil

/-- A quotient that is in range, up to one, in the narrow layout is in range in the wide one. -/
theorem representable_near (h : L.bits < L'.bits) {q : ℚ} (mode : RoundMode)
    (hq : |q * 10 ^ P| ≤ 2 ^ (L.bits - 1) + 2) : Representable L' P (roundTo P mode q) := by
  have hp := pow_step h
  have e : roundTo P mode q = ((Spec.round mode (q * 10 ^ P) : Int) : ℚ) / 10 ^ P := rfl
  rw [e, representable_iff]
  have h1 : |(Spec.round mode (q * 10 ^ P) : ℚ) - q * 10 ^ P| ≤ 1 := by
    have := (roundTo_error P mode q).le
    rw [e, show ((Spec.round mode (q * 10 ^ P) : Int) : ℚ) / 10 ^ P - q =
      ((Spec.round mode (q * 10 ^ P) : Int) - q * 10 ^ P) / 10 ^ P by
        have := ten_pow_ne P; field_simp, abs_div, abs_of_pos (ten_pow_pos P),
      div_le_div_iff_of_pos_right (ten_pow_pos P)] at this
    exact this
  have h2 : |(Spec.round mode (q * 10 ^ P) : ℚ)| ≤ 2 ^ (L.bits - 1) + 3 := by
    have := abs_sub_abs_le_abs_sub (Spec.round mode (q * 10 ^ P) : ℚ) (q * 10 ^ P)
    linarith
  have h3 : |Spec.round mode (q * 10 ^ P)| ≤ 2 ^ (L.bits - 1) + 3 := by exact_mod_cast h2
  rw [abs_le] at h3
  unfold Fits iMin iMax
  omega

/-- A truncated quotient in the narrow range leaves the quotient near it. -/
theorem quotient_near {n d : Int} (hd0 : d ≠ 0) (hq : rawMin L ≤ n.tdiv d ∧ n.tdiv d ≤ rawMax L) :
    |(n : ℚ) / (d : ℚ)| ≤ 2 ^ (L.bits - 1) + 2 := by
  have hd : n = d * n.tdiv d + n.tmod d := (Int.mul_tdiv_add_tmod n d).symm
  have hr : |n.tmod d| ≤ |d| := (tmod_abs_lt n hd0).le
  have hq' : |n.tdiv d| ≤ 2 ^ (L.bits - 1) := by
    unfold rawMin rawMax at hq
    rw [abs_le]; omega
  have hdq : (0 : ℚ) < |(d : ℚ)| := abs_pos.2 (by exact_mod_cast hd0)
  rw [abs_div, div_le_iff₀ hdq]
  have e1 : |(n : ℚ)| ≤ |(d : ℚ)| * |(n.tdiv d : ℚ)| + |(n.tmod d : ℚ)| := by
    rw [← abs_mul]
    calc |(n : ℚ)| = |(d : ℚ) * (n.tdiv d : ℚ) + (n.tmod d : ℚ)| := by
          congr 1; exact_mod_cast hd
      _ ≤ _ := abs_add_le _ _
  have e2 : |(n.tdiv d : ℚ)| ≤ 2 ^ (L.bits - 1) := by exact_mod_cast hq'
  have e3 : |(n.tmod d : ℚ)| ≤ |(d : ℚ)| := by exact_mod_cast hr
  nlinarith

/-- C80: division.  For `Nearest` the narrow build has overflow checks: without them it may return
another number, see `C80_outside_domain`. -/
theorem C80_rdiv {cfg cfg' : Cfg} (h : L.bits < L'.bits) (hv : Valid cfg L P) (hv' : Valid cfg' L' P)
    {a b : FP L P} {a' b' : FP L' P} (ha : value a' = value a) (hb : value b' = value b)
    (mode : RoundMode) (hm : mode = .nearest → cfg.overflowChecks = true) :
    Widens (FP.rdiv cfg a b mode) (FP.rdiv cfg' a' b' mode) := by
  by_cases h0 : value b = 0
  · exact widens_err ((C10_rdiv_zero_iff hv a b mode).2 h0)
      ((C10_rdiv_zero_iff hv' a' b' mode).2 (by rw [hb]; exact h0))
  have h0' : value b' ≠ 0 := by rw [hb]; exact h0
  by_cases hn : mode = .nearest
  · subst hn
    have h2 : ExactOr ArithErr.overflow (FP.rdiv cfg' a' b' .nearest)
        (roundTo P .nearest (value a / value b)) := by
      have h2 := C11_rdiv_nearest_small_partial hv' a' b' h0' (by
        have h1 := abs_raw b
        have hp := pow_step h
        rw [hb]
        unfold value maxValue rawMax
        rw [abs_div, abs_of_pos (ten_pow_pos P), ← mul_div_assoc,
          div_le_div_iff_of_pos_right (ten_pow_pos P)]
        have : 2 * |b.inner.toInt| ≤ 2 ^ (L'.bits - 1) - 1 := by omega
        exact_mod_cast this)
      rwa [ha, hb] at h2
    by_cases hs : NearestSafe L (a.inner.toInt * 10 ^ P) b.inner.toInt
    · exact widens_exact h (C11_rdiv_nearest_partial hv a b h0 hs) h2
    · have hp := (C11_rdiv_nearest_panics_iff hv (hm rfl) a b h0).2 hs
      unfold NearestSafe at hs
      push Not at hs
      obtain ⟨-, h3, -⟩ := hs
      obtain ⟨y, hy, -⟩ := h2.1 (representable_near h .nearest (by
        have hb0 : b.inner.toInt ≠ 0 := by
          intro hc; apply h0; unfold value; rw [hc]; simp
        have e : value a / value b * 10 ^ P =
            ((a.inner.toInt * 10 ^ P : Int) : ℚ) / (b.inner.toInt : ℚ) := by
          have := ten_pow_ne P
          unfold value; push_cast; field_simp
        rw [e]
        exact quotient_near hb0 h3))
      exact widens_panic hp hy
  · have h2 := C10_rdiv_directed hv' a' b' mode hn h0'
    rw [ha, hb] at h2
    exact widens_exact h (C10_rdiv_directed hv a b mode hn h0) h2

example := C80_rdiv (cfg := debugCfg) (cfg' := releaseCfg) (by decide) (by decide) (by decide)
  (a := (⟨-1500000007⟩ : FP .i64 9)) (a' := (⟨-1500000007⟩ : FP .i128 9))
  (b := ⟨2500000001⟩) (b' := ⟨2500000001⟩) (by decide +kernel) (by decide +kernel) .nearest (by decide)

theorem C80_rdiv_int {cfg cfg' : Cfg} (h : L.bits < L'.bits) {a : FP L P} {a' : FP L' P}
    (ha : value a' = value a) {n : BitVec L.bits} {n' : BitVec L'.bits} (hn : n'.toInt = n.toInt)
    (mode : RoundMode) (hm : mode = .nearest → cfg.overflowChecks = true) :
    Widens (FP.rdivInt cfg a n mode) (FP.rdivInt cfg' a' n' mode) := by
  by_cases h0 : n.toInt = 0
  · exact widens_err ((C12_rdivInt_zero_iff cfg a n mode).2 h0)
      ((C12_rdivInt_zero_iff cfg' a' n' mode).2 (by rw [hn]; exact h0))
  have hp := pow_step h
  have h2 : ExactOr ArithErr.overflow (FP.rdivInt cfg' a' n' mode)
      (roundTo P mode (value a / (n.toInt : ℚ))) := by
    have h2 := C12_rdivInt_small_partial cfg' a' n' mode (by rw [hn]; exact h0)
      (by
        rw [same_raw ha]
        have := (abs_le.1 (abs_raw a)).1
        unfold rawMin
        omega)
      (by
        rw [hn]
        have := abs_int n
        unfold rawMax
        omega)
    rwa [ha, hn] at h2
  have hrep : Representable L' P (roundTo P mode (value a / (n.toInt : ℚ))) := by
    apply representable_near h
    have e : value a / (n.toInt : ℚ) * 10 ^ P = (a.inner.toInt : ℚ) / (n.toInt : ℚ) := by
      have := ten_pow_ne P
      unfold value; field_simp
    have h1 : (1 : ℚ) ≤ |(n.toInt : ℚ)| := by exact_mod_cast Int.one_le_abs h0
    have h3 : |(a.inner.toInt : ℚ)| ≤ 2 ^ (L.bits - 1) := by exact_mod_cast abs_raw a
    rw [e, abs_div]
    have := div_le_self (abs_nonneg (a.inner.toInt : ℚ)) h1
    linarith
  obtain ⟨y, hy, -⟩ := h2.1 hrep
  by_cases hmin : a.inner.toInt = rawMin L ∧ n.toInt = -1
  · refine widens_panic ?_ hy
    unfold FP.rdivInt
    rw [intRdiv_min cfg _ _ mode hmin.1 hmin.2]; rfl
  by_cases hs : mode = .nearest ∧ ¬ IntNearestSafe L.bits a.inner.toInt n.toInt
  · exact widens_panic ((C12_rdivInt_panics_iff cfg (hm hs.1) a n mode h0).2 (.inr hs)) hy
  · refine widens_exact h (C12_rdivInt_partial cfg a n mode h0 hmin fun hc => ?_) h2
    by_contra hcon
    exact hs ⟨hc, hcon⟩

example := C80_rdiv_int (cfg := debugCfg) (cfg' := releaseCfg) (by decide)
  (a := (⟨-1500000007⟩ : FP .i64 9)) (a' := (⟨-1500000007⟩ : FP .i128 9)) (by decide +kernel)
  (n := -7) (n' := -7) (by decide +kernel) .nearest (by decide)

theorem C80_recip {cfg cfg' : Cfg} (h : L.bits < L'.bits) (hv : Valid cfg L P)
    (hv' : Valid cfg' L' P) {a : FP L P} {a' : FP L' P} (ha : value a' = value a) (mode : RoundMode)
    (hm : mode = .nearest → cfg.overflowChecks = true) :
    Widens (FP.recip cfg a mode) (FP.recip cfg' a' mode) := by
  obtain ⟨o, h1, e1⟩ := C15_recip_is_rdiv hv a mode
  obtain ⟨o', h2, e2⟩ := C15_recip_is_rdiv hv' a' mode
  rw [e1, e2]
  exact C80_rdiv h hv hv' (h2.trans h1.symm) ha mode hm

example := C80_recip (cfg := debugCfg) (cfg' := releaseCfg) (by decide) (by decide) (by decide)
  (a := (⟨-1500000007⟩ : FP .i64 9)) (a' := (⟨-1500000007⟩ : FP .i128 9)) (by decide +kernel) .nearest (by decide)

/-- C80: an integer divided by a number.  Only results are related: the narrow layout may reject the
integer itself while the wide one accepts it. -/
theorem C80_int_rdiv {cfg cfg' : Cfg} (h : L.bits < L'.bits) (hv : Valid cfg L P)
    (hv' : Valid cfg' L' P) {n : BitVec L.bits} {n' : BitVec L'.bits} (hn : n'.toInt = n.toInt)
    {a : FP L P} {a' : FP L' P} (ha : value a' = value a) (mode : RoundMode)
    (hm : mode = .nearest → cfg.overflowChecks = true) (x : FP L P)
    (hx : FP.intRdiv cfg n a mode = .ok x) :
    ∃ y, FP.intRdiv cfg' n' a' mode = .ok y ∧ value y = value x := by
  by_cases hr : Representable L P (n.toInt : ℚ)
  · obtain ⟨l, h1, -, e1⟩ := intRdiv_eq hv n a mode hr
    obtain ⟨l', h2, -, e2⟩ := intRdiv_eq hv' n' a' mode (by rw [hn]; exact representable_widen h hr)
    rw [e1] at hx
    rw [e2]
    exact (C80_rdiv h hv hv' (by rw [h1, h2, hn]) ha mode hm).ok x hx
  · rw [C13_intRdiv_overflow hv n a mode hr] at hx; cases hx

example := C80_int_rdiv (cfg := debugCfg) (cfg' := releaseCfg) (by decide) (by decide) (by decide)
  (n := -7) (n' := -7) (by decide +kernel) (a := (⟨-1500000007⟩ : FP .i64 9)) (a' := (⟨-1500000007⟩ : FP .i128 9))
  (by decide +kernel) .nearest (by decide) ⟨4666666645⟩ (by decide +kernel)

theorem C80_half_sum {cfg cfg' : Cfg} {a b : FP L P} {a' b' : FP L' P} (ha : value a' = value a)
    (hb : value b' = value b) (mode : RoundMode) :
    Widens (FP.halfSum cfg a b mode : Res ε _) (FP.halfSum cfg' a' b' mode) := by
  by_cases hm : mode = .nearest
  · subst hm
    by_cases hc : value a < 0 ∧ value b < 0
    · obtain ⟨x, hx, ex⟩ := C17_half_sum_negative (ε := ε) cfg a b hc.1 hc.2
      obtain ⟨y, hy, ey⟩ := C17_half_sum_negative (ε := ε) cfg' a' b' (ha ▸ hc.1) (hb ▸ hc.2)
      exact widens_ok hx hy (by rw [ex, ey, ha, hb])
    · obtain ⟨x, hx, ex⟩ := C17_half_sum_ties_partial (ε := ε) cfg a b hc
      obtain ⟨y, hy, ey⟩ := C17_half_sum_ties_partial (ε := ε) cfg' a' b' (by rw [ha, hb]; exact hc)
      exact widens_ok hx hy (by rw [ex, ey, ha, hb])
  · obtain ⟨x, hx, ex⟩ := C16_half_sum_directed (ε := ε) cfg a b mode hm
    obtain ⟨y, hy, ey⟩ := C16_half_sum_directed (ε := ε) cfg' a' b' mode hm
    exact widens_ok hx hy (by rw [ex, ey, ha, hb])

example := C80_half_sum (ε := Unit) (cfg := debugCfg) (cfg' := releaseCfg)
  (a := (⟨-1500000007⟩ : FP .i64 9)) (a' := (⟨-1500000007⟩ : FP .i128 9)) (b := ⟨2500000001⟩) (b' := ⟨2500000001⟩)
  (by decide +kernel) (by decide +kernel) .nearest

theorem C80_rsqrt {cfg cfg' : Cfg} (hv : Valid cfg L P) (hv' : Valid cfg' L' P) {a : FP L P}
    {a' : FP L' P} (ha : value a' = value a) (mode : RoundMode) :
    Widens (FP.rsqrt cfg a mode) (FP.rsqrt cfg' a' mode) := by
  rcases lt_or_ge (value a) 0 with h0 | h0
  · exact widens_err ((C22_rsqrt_domain hv a mode).2 h0)
      ((C22_rsqrt_domain hv' a' mode).2 (by rw [ha]; exact h0))
  · obtain ⟨x, hx, ex⟩ := C22_rsqrt hv a h0 mode
    obtain ⟨y, hy, ey⟩ := C22_rsqrt hv' a' (by rw [ha]; exact h0) mode
    rw [ha] at ey
    exact widens_ok hx hy (C22_unique P mode _ _ _ ey ex)

example := C80_rsqrt (cfg := debugCfg) (cfg' := releaseCfg) (by decide) (by decide)
  (a := (⟨2000000000⟩ : FP .i64 9)) (a' := (⟨2000000000⟩ : FP .i128 9)) (by decide +kernel) .ceil

/-- The number is not the smallest one of the wide layout. -/
theorem ne_min_wide (h : L.bits < L'.bits) {a : FP L P} {a' : FP L' P} (ha : value a' = value a) :
    value a' ≠ minValue L' P := by
  rw [ha]
  unfold value minValue
  rw [Ne, div_left_inj' (ten_pow_ne P)]
  intro hc
  have hc : a.inner.toInt = rawMin L' := by exact_mod_cast hc
  have h1 := (abs_le.1 (abs_raw a)).1
  have hp := pow_step h
  unfold rawMin at hc
  omega

/-- C80: the integral part, except `MIN` of the narrow layout in builds without overflow checks. -/
theorem C80_integral {cfg cfg' : Cfg} (h : L.bits < L'.bits) (hv : Valid cfg L P)
    (hv' : Valid cfg' L' P) {a : FP L P} {a' : FP L' P} (ha : value a' = value a) (mode : RoundMode)
    (hm : value a = minValue L P → cfg.overflowChecks = true) (i : BitVec L.bits)
    (hi : (FP.integral cfg a mode : Res ε _) = .ok i) :
    ∃ j, (FP.integral cfg' a' mode : Res ε _) = .ok j ∧ j.toInt = i.toInt := by
  have h38 := not_38 h hv
  obtain ⟨j, hj, ej⟩ := C18_integral_types_partial (ε := ε) hv' a' mode (ne_min_wide h ha)
    fun _ hc => h38 hc.2
  refine ⟨j, hj, ?_⟩
  by_cases h0 : value a = minValue L P
  · have := (C18_integral_panics_iff (ε := ε) hv (hm h0) a mode).2 (.inl h0)
    rw [this] at hi; cases hi
  · obtain ⟨k, hk, ek⟩ := C18_integral_types_partial (ε := ε) hv a mode h0 fun _ hc => h38 hc.2
    rw [hk] at hi; cases hi
    rw [ej, ek, ha]

example := C80_integral (ε := Unit) (cfg := debugCfg) (cfg' := releaseCfg) (by decide) (by decide)
  (by decide) (a := (⟨-1500000007⟩ : FP .i64 9)) (a' := (⟨-1500000007⟩ : FP .i128 9))
  (by decide +kernel) .floor (by decide +kernel) (-2) (by decide +kernel)

/-- C80: `floor`, `ceil` and `round`, except `MIN` of the narrow layout.  (They panic instead of
returning an error.) -/
theorem C80_floor_ceil_round {cfg cfg' : Cfg} (h : L.bits < L'.bits) (hv : Valid cfg L P)
    (hv' : Valid cfg' L' P) {a : FP L P} {a' : FP L' P} (ha : value a' = value a)
    (hm : value a ≠ minValue L P) (x : FP L P) :
    ((FP.floor cfg a : Res ε _) = .ok x ↔
      ∃ y, (FP.floor cfg' a' : Res ε _) = .ok y ∧ value y = value x) ∧
    ((FP.ceil cfg a : Res ε _) = .ok x ↔
      ∃ y, (FP.ceil cfg' a' : Res ε _) = .ok y ∧ value y = value x) ∧
    ((FP.round cfg a : Res ε _) = .ok x ↔
      ∃ y, (FP.round cfg' a' : Res ε _) = .ok y ∧ value y = value x) := by
  have key {r : Res ε (FP L P)} {r' : Res ε (FP L' P)} {q : ℚ} (h1 : ExactOrPanic r q)
      (h2 : ExactOrPanic r' q) : r = .ok x ↔ ∃ y, r' = .ok y ∧ value y = value x := by
    constructor
    · intro hx
      by_cases hr : Representable L P q
      · obtain ⟨c, hc, ec⟩ := h1.1 hr
        rw [hc] at hx; cases hx
        obtain ⟨y, hy, ey⟩ := h2.1 (representable_widen h hr)
        exact ⟨y, hy, ey.trans ec.symm⟩
      · rw [h1.2 hr] at hx; cases hx
    · rintro ⟨y, hy, ey⟩
      by_cases hr : Representable L' P q
      · obtain ⟨c, hc, ec⟩ := h2.1 hr
        rw [hc] at hy; cases hy
        obtain ⟨d, hd, ed⟩ := h1.1 ⟨x, by rw [← ey, ec]⟩
        rw [hd, value_inj (ed.trans (ec.symm.trans ey))]
      · rw [h2.2 hr] at hy; cases hy
  have h38 := not_38 h hv
  have hm' := ne_min_wide h ha
  have f2 := C19_floor (ε := ε) hv' a' hm'
  have c2 := C19_ceil (ε := ε) hv' a' hm'
  have r2 := C19_round_types_partial (ε := ε) hv' a' hm' fun hc => h38 hc.2
  rw [ha] at f2 c2 r2
  exact ⟨key (C19_floor hv a hm) f2, key (C19_ceil hv a hm) c2,
    key (C19_round_types_partial hv a hm fun hc => h38 hc.2) r2⟩

example := C80_floor_ceil_round (ε := Unit) (cfg := debugCfg) (cfg' := releaseCfg) (by decide) (by decide)
  (by decide) (a := (⟨-1500000007⟩ : FP .i64 9)) (a' := (⟨-1500000007⟩ : FP .i128 9))
  (by decide +kernel) (by decide +kernel) ⟨-2000000000⟩

theorem C80_round_towards_zero {x p : FP L P} {x' p' : FP L' P} (hx : value x' = value x)
    (hp : value p' = value p) :
    value (FP.roundTowardsZeroBy x' p') = value (FP.roundTowardsZeroBy x p) := by
  by_cases h0 : value p = 0
  · rw [C20_zero x p h0, C20_zero x' p' (by rw [hp]; exact h0), hx]
  · rw [C20_truncated x p h0, C20_truncated x' p' (by rw [hp]; exact h0), hx, hp]

example := C80_round_towards_zero (x := (⟨-1500000007⟩ : FP .i64 9))
  (x' := (⟨-1500000007⟩ : FP .i128 9)) (p := ⟨100⟩) (p' := ⟨100⟩) (by decide +kernel) (by decide +kernel)

/-! ## Comparison, text, floats, decimal parts -/

theorem C80_cmp {a b : FP L P} {a' b' : FP L' P} (ha : value a' = value a)
    (hb : value b' = value b) : FP.cmp a' b' = FP.cmp a b := by
  unfold FP.cmp
  rw [same_raw ha, same_raw hb]

example := C80_cmp (a := (⟨-1500000007⟩ : FP .i64 9)) (a' := (⟨-1500000007⟩ : FP .i128 9))
  (b := ⟨2500000001⟩) (b' := ⟨2500000001⟩) (by decide +kernel) (by decide +kernel)

/-- C80: printing. -/
theorem C80_display {cfg cfg' : Cfg} (h : L.bits < L'.bits) (hv : Valid cfg L P)
    (hv' : Valid cfg' L' P) (hP : 1 ≤ P) {a : FP L P} {a' : FP L' P} (ha : value a' = value a) :
    (FP.display cfg' a' : Res ε (List Char)) = FP.display cfg a := by
  have h38 := not_38 h hv
  obtain ⟨l, h1, c1, d1, -⟩ := C28_display_types (ε := ε) hv hP (fun hc => h38 hc.2) a
  obtain ⟨m, h2, c2, d2, -⟩ := C28_display_types (ε := ε) hv' hP (fun hc => h38 hc.2) a'
  rw [h1, h2, C28_canonical_unique c2 c1 (by rw [d1, d2, ha])]

example := C80_display (ε := Unit) (cfg := debugCfg) (cfg' := releaseCfg) (by decide) (by decide)
  (by decide) (by decide) (a := (⟨-1500000007⟩ : FP .i64 9)) (a' := (⟨-1500000007⟩ : FP .i128 9))
  (by decide +kernel)

/-- C80: reading.  The narrow layout accepts exactly what the wide one reads as a number in its
range. -/
theorem C80_from_str {cfg cfg' : Cfg} (h : L.bits < L'.bits) (hv : Valid cfg L P)
    (hv' : Valid cfg' L' P) (s : List Char) (x : FP L P) :
    (FP.fromStr cfg s = .ok x ↔
      ∃ y : FP L' P, FP.fromStr cfg' s = .ok y ∧ value y = value x) ∧
    (FP.fromStrExact cfg s = .ok x ↔
      ∃ y : FP L' P, FP.fromStrExact cfg' s = .ok y ∧ value y = value x) := by
  obtain ⟨y, hy⟩ := representable_widen h (P := P) ⟨x, rfl⟩
  constructor
  · rcases Nat.eq_zero_or_pos P with rfl | hP
    · rw [C32_from_str_zero_precision hv]
      constructor
      · rintro ⟨l, h1, h2, h3⟩
        exact ⟨y, (C32_from_str_zero_precision hv' s y).2 ⟨l, h1, h2, by rw [h3, hy]⟩, hy⟩
      · rintro ⟨z, hz, ez⟩
        obtain ⟨l, h1, h2, h3⟩ := (C32_from_str_zero_precision hv' s z).1 hz
        exact ⟨l, h1, h2, h3.trans ez⟩
    · rw [C32_from_str_iff hv hP]
      constructor
      · rintro ⟨l, h1, h2⟩
        exact ⟨y, (C32_from_str_iff hv' hP s y).2 ⟨l, h1, by rw [hy, h2]⟩, hy⟩
      · rintro ⟨z, hz, ez⟩
        obtain ⟨l, h1, h2⟩ := (C32_from_str_iff hv' hP s z).1 hz
        exact ⟨l, h1, ez.symm.trans h2⟩
  · rw [C31_from_str_exact_iff hv]
    constructor
    · rintro ⟨l, h1, h2, h3⟩
      exact ⟨y, (C31_from_str_exact_iff hv' s y).2 ⟨l, h1, h2, by rw [h3, hy]⟩, hy⟩
    · rintro ⟨z, hz, ez⟩
      obtain ⟨l, h1, h2, h3⟩ := (C31_from_str_exact_iff hv' s z).1 hz
      exact ⟨l, h1, h2, h3.trans ez⟩

example := C80_from_str (L := .i64) (L' := .i128) (P := 9) (cfg := debugCfg) (cfg' := releaseCfg)
  (by decide) (by decide) (by decide) "-1.25".toList ⟨-1250000000⟩

/-- C80: conversion to `f64` gives the same bits. -/
theorem C80_to_f64 {cfg cfg' : Cfg} (hv : Valid cfg L P) (hv' : Valid cfg' L' P) {a : FP L P}
    {a' : FP L' P} (ha : value a' = value a) :
    (FP.toF64 cfg' a' : Res ε _) = FP.toF64 cfg a := by
  rw [toF64_eq hv, toF64_eq hv', same_raw ha]

example := C80_to_f64 (ε := Unit) (cfg := debugCfg) (cfg' := releaseCfg) (by decide) (by decide)
  (a := (⟨-1500000007⟩ : FP .i64 9)) (a' := (⟨-1500000007⟩ : FP .i128 9)) (by decide +kernel)

/-- C80: conversion from `f64`.  The bound is symmetric: `MIN` is never produced. -/
theorem C80_try_from_f64 (cfg : Cfg) (h : L.bits < L'.bits) (hP : P ≤ 10 ^ 9) (f : BitVec 64) :
    (∀ x : FP L P, FP.tryFromF64 cfg f = .ok x →
      ∃ y : FP L' P, FP.tryFromF64 cfg f = .ok y ∧ value y = value x) ∧
    (∀ e, (FP.tryFromF64 cfg f : Res ConvErr (FP L' P)) = .err e →
      (FP.tryFromF64 cfg f : Res ConvErr (FP L P)) = .err e) ∧
    (∀ e, (FP.tryFromF64 cfg f : Res ConvErr (FP L P)) = .err e →
      (FP.tryFromF64 cfg f : Res ConvErr (FP L' P)) = .err e ∨
      ∃ y : FP L' P, FP.tryFromF64 cfg f = .ok y ∧ maxValue L P < |value y|) := by
  by_cases hf : f64Finite f
  swap
  · rw [C40_not_finite cfg f hf, C40_not_finite cfg f hf]
    exact ⟨fun x hx => (by cases hx), fun e he => (by cases he; rfl),
      fun e he => .inl (by cases he; rfl)⟩
  by_cases h0 : f64Bits f = 0
  · have hz : f64Value f = 0 := by
      have h1 : f64Magnitude f = 0 := by rw [f64Magnitude_eq, h0]; simp
      unfold f64Value
      rw [h1]; simp
    have hz := (C40_zero_iff f hf).1 hz
    rw [C40_zero cfg f hz, C40_zero cfg f hz]
    refine ⟨fun x hx => ⟨_, rfl, ?_⟩, fun e he => (by cases he), fun e he => (by cases he)⟩
    cases hx
    unfold value FP.zero FP.fromBits
    simp
  have hp := pow_step h
  obtain ⟨r, hr⟩ : ∃ r : Nat, ∀ (M : Layout) (neg : Bool),
      stages cfg P (f64Bits f) (f64Exp2 f) >>= finish M P neg = finish M P neg r := by
    obtain ⟨h1, h2⟩ := f64Exp2_range f hf
    obtain ⟨r, -, r2, r3⟩ := stages_exact cfg (P := P) (Nat.pos_of_ne_zero h0) (f64Bits_lt f)
      (show -1100 ≤ f64Exp2 f by omega) (by omega) hP
    refine ⟨r, fun M neg => ?_⟩
    by_cases hr : r < 2 ^ 128
    · rw [r2 hr, ok_bind]
    · rw [r3 (not_lt.1 hr), err_bind]
      unfold finish
      rw [if_neg]
      have h4 : rawMax M < 2 ^ 128 := by cases M <;> decide
      have h5 : (2 : Int) ^ 128 ≤ r := by exact_mod_cast not_lt.1 hr
      omega
  rw [tryFromF64_eq cfg f hf h0, tryFromF64_eq cfg f hf h0, hr, hr]
  generalize decide (f64Negative f) = neg
  have hv (M : Layout) (hM : (r : Int) ≤ rawMax M) :
      value (⟨BitVec.ofInt _ (if neg then -(r : Int) else r)⟩ : FP M P) =
        ((if neg then -(r : Int) else r : Int) : ℚ) / 10 ^ P := by
    apply value_ofInt
    unfold rawMax at hM
    unfold Fits iMin iMax
    split <;> omega
  have hLL : rawMax L ≤ rawMax L' := by unfold rawMax; omega
  unfold finish
  by_cases c1 : (r : Int) ≤ rawMax L
  · have c2 := c1.trans hLL
    rw [if_pos c1, if_pos c2]
    refine ⟨fun x hx => ⟨_, rfl, ?_⟩, fun e he => (by cases he), fun e he => (by cases he)⟩
    cases hx
    rw [hv _ c1, hv _ c2]
  · rw [if_neg c1]
    by_cases c2 : (r : Int) ≤ rawMax L'
    · rw [if_pos c2]
      refine ⟨fun x hx => (by cases hx), fun e he => (by cases he), fun e _ => .inr ⟨_, rfl, ?_⟩⟩
      rw [hv _ c2, abs_div, abs_of_pos (ten_pow_pos P)]
      unfold maxValue
      rw [div_lt_div_iff_of_pos_right (ten_pow_pos P)]
      have : |((if neg then -(r : Int) else r : Int) : ℚ)| = ((r : Int) : ℚ) := by
        cases neg <;> simp
      rw [this]
      exact_mod_cast not_le.1 c1
    · rw [if_neg c2]
      exact ⟨fun x hx => (by cases hx), fun e he => (by cases he; rfl),
        fun e he => .inl (by cases he; rfl)⟩

example := C80_try_from_f64 (L := .i64) (L' := .i128) (P := 9) debugCfg (by decide) (by norm_num)
  0x402AD70A3D70A3D7

/-- C80: splitting into mantissa and exponent. -/
theorem C80_to_decimal {a : FP L P} {a' : FP L' P} (ha : value a' = value a) (maxExp : Int)
    (h : -(P : Int) ≤ maxExp) :
    ∃ m m' e, (FP.toDecimal a maxExp : Res ε _) = .ok (m, e) ∧
      (FP.toDecimal a' maxExp : Res ε _) = .ok (m', e) ∧ m'.toInt = m.toInt := by
  obtain ⟨m, e, h1, -, h3, h4, h5, h6⟩ := C25_to_decimal (ε := ε) a maxExp h
  obtain ⟨m', e', k1, -, k3, k4, k5, k6⟩ := C25_to_decimal (ε := ε) a' maxExp h
  rw [ha] at k4 k5 k6
  have step {m m' : Int} {e e' : Int} (hlt : e < e')
      (he : (m : ℚ) * 10 ^ e = (m' : ℚ) * 10 ^ e') : (10 : Int) ∣ m := by
    obtain ⟨k, rfl⟩ : ∃ k : Nat, e' = e + 1 + k := ⟨(e' - e - 1).toNat, by omega⟩
    rw [zpow_add₀ (by norm_num), zpow_add₀ (by norm_num), zpow_one, zpow_natCast] at he
    have hz : (10 : ℚ) ^ e ≠ 0 := zpow_ne_zero _ (by norm_num)
    have : (m : ℚ) = 10 * (m' * 10 ^ k) := by
      apply mul_right_cancel₀ hz; rw [he]; ring
    exact ⟨m' * 10 ^ k, by exact_mod_cast this⟩
  have hee : e = e' := by
    by_cases h0 : value a = 0
    · rw [h6 h0, k6 h0]
    · rcases lt_trichotomy e e' with c | c | c
      · exact absurd (step c (h4.trans k4.symm)) (h5 h0 (by omega))
      · exact c
      · exact absurd (step c (k4.trans h4.symm)) (k5 h0 (by omega))
  subst hee
  refine ⟨m, m', e, h1, k1, ?_⟩
  have := mul_right_cancel₀ (zpow_ne_zero e (by norm_num : (10 : ℚ) ≠ 0)) (k4.trans h4.symm)
  exact_mod_cast this

example := C80_to_decimal (ε := Unit) (a := (⟨-1500000007⟩ : FP .i64 9)) (a' := (⟨-1500000007⟩ : FP .i128 9))
  (by decide +kernel) (-3) (by decide)

/-- C80: building from mantissa and exponent, where the narrow layout holds the power of ten. -/
theorem C80_from_decimal {cfg cfg' : Cfg} (h : L.bits < L'.bits) {m : BitVec L.bits}
    {m' : BitVec L'.bits} (hm : m'.toInt = m.toInt) (e : Int)
    (hp : (10 : Int) ^ (e + P).toNat ≤ rawMax L) :
    Widens (FP.fromDecimal cfg m e : Res ConvErr (FP L P))
      (FP.fromDecimal cfg' m' e : Res ConvErr (FP L' P)) := by
  by_cases he : -(P : Int) ≤ e ∧ e ≤ 10
  · have h2 := C24_from_decimal_partial cfg' (P := P) m' e he (by
      have := pow_step h
      unfold rawMax at *
      omega)
    rw [hm] at h2
    exact widens_exact h (C24_from_decimal_partial cfg m e he hp) h2
  · have he : e < -(P : Int) ∨ 10 < e := by omega
    exact widens_err (C24_from_decimal_exponent cfg m e he) (C24_from_decimal_exponent cfg' m' e he)

example := C80_from_decimal (L := .i64) (L' := .i128) (P := 9) (cfg := debugCfg) (cfg' := releaseCfg)
  (by decide) (m := -7) (m' := -7) (by decide +kernel) 3 (by decide)

/-! ## Programs -/

/-- The same step in the two layouts. -/
inductive Step.Same : Step L P → Step L' P → Prop
  | add {x x'} (h : value x' = value x) : Same (.add x) (.add x')
  | sub {x x'} (h : value x' = value x) : Same (.sub x) (.sub x')
  | neg : Same .neg .neg
  | mulInt {n n'} (h : n'.toInt = n.toInt) : Same (.mulInt n) (.mulInt n')
  | mul {x x'} (m) (h : value x' = value x) : Same (.mul x m) (.mul x' m)
  | div {x x'} (m) (h : value x' = value x) : Same (.div x m) (.div x' m)
  | divInt {n n'} (m) (h : n'.toInt = n.toInt) : Same (.divInt n m) (.divInt n' m)
  | half {x x'} (m) (h : value x' = value x) : Same (.half x m) (.half x' m)

theorem C80_step {cfg cfg' : Cfg} (h : L.bits < L'.bits) (hv : Valid cfg L P)
    (hv' : Valid cfg' L' P) (hc : cfg.overflowChecks = true) {s : Step L P} {s' : Step L' P}
    (hs : s.Same s') {a : FP L P} {a' : FP L' P} (ha : value a' = value a) :
    Widens (s.run cfg a) (s'.run cfg' a') := by
  cases hs with
  | add hx => exact C80_cadd h ha hx
  | sub hx => exact C80_csub h ha hx
  | neg => exact C80_cneg h ha
  | mulInt hn => exact C80_cmul h ha hn
  | mul m hx => exact C80_rmul h hv hv' ha hx m
  | div m hx => exact C80_rdiv h hv hv' ha hx m fun _ => hc
  | divInt m hn => exact C80_rdiv_int h ha hn m fun _ => hc
  | half m hx => exact C80_half_sum ha hx m

example := C80_step (cfg := debugCfg) (cfg' := releaseCfg) (by decide) (by decide) (by decide) (by decide)
  (s := .mul ⟨300⟩ .nearest) (s' := .mul ⟨300⟩ .nearest) (.mul _ (by decide +kernel))
  (a := (⟨-1500000007⟩ : FP .i64 9)) (a' := (⟨-1500000007⟩ : FP .i128 9)) (by decide +kernel)

/-- C80: a calculation that succeeds in the narrow layout, in a build with overflow checks, gives the
same number in a wider layout in every build; widening the type changes no result. -/
theorem C80_program {cfg cfg' : Cfg} (h : L.bits < L'.bits) (hv : Valid cfg L P)
    (hv' : Valid cfg' L' P) (hc : cfg.overflowChecks = true) {ss : List (Step L P)}
    {ss' : List (Step L' P)} (hs : List.Forall₂ Step.Same ss ss') {a b : FP L P} {a' : FP L' P}
    (ha : value a' = value a) (hb : runProgram cfg ss a = .ok b) :
    ∃ b', runProgram cfg' ss' a' = .ok b' ∧ value b' = value b := by
  induction hs generalizing a a' with
  | nil => cases hb; exact ⟨a', rfl, ha⟩
  | cons h1 _ ih =>
    obtain ⟨c, hc1, hc2⟩ := bind_ok_inv hb
    obtain ⟨c', hc3, hc4⟩ := (C80_step h hv hv' hc h1 ha).ok c hc1
    obtain ⟨b', hb1, hb2⟩ := ih hc4 hc2
    refine ⟨b', ?_, hb2⟩
    show (_ >>= _) = _
    rw [hc3]; exact hb1

example := C80_program (cfg := debugCfg) (cfg' := releaseCfg) (by decide) (by decide) (by decide) (by decide)
  (ss := [.mul ⟨300⟩ .nearest, .neg, .add ⟨5⟩]) (ss' := [.mul ⟨300⟩ .nearest, .neg, .add ⟨5⟩])
  (.cons (.mul _ (by decide +kernel)) (.cons .neg (.cons (.add (by decide +kernel)) .nil)))
  (a := (⟨-1500000007⟩ : FP .i64 9)) (b := ⟨455⟩) (a' := (⟨-1500000007⟩ : FP .i128 9)) (by decide +kernel)
  (by decide +kernel)

/-- C80: without overflow checks the narrow layout may round to the wrong side. -/
theorem C80_outside_domain :
    FP.rdiv releaseCfg (⟨5000000000⟩ : FP .i64 9) ⟨9000000000000000000⟩ .nearest = .ok ⟨0⟩ ∧
    FP.rdiv releaseCfg (⟨5000000000⟩ : FP .i128 9) ⟨9000000000000000000⟩ .nearest = .ok ⟨1⟩ := by
  decide +kernel

example : Layout.i64.bits < Layout.i128.bits ∧ Valid debugCfg .i64 9 ∧ Valid debugCfg .i128 9 ∧
    FP.rmul debugCfg (⟨1500000000⟩ : FP .i64 9) ⟨2500000001⟩ .nearest = .ok ⟨3750000002⟩ ∧
    FP.rmul debugCfg (⟨1500000000⟩ : FP .i128 9) ⟨2500000001⟩ .nearest = .ok ⟨3750000002⟩ ∧
    FP.cadd (FP.max : FP .i64 9) ⟨1⟩ = .err .overflow ∧
    FP.cadd (⟨9223372036854775807⟩ : FP .i128 9) ⟨1⟩ = .ok ⟨9223372036854775808⟩ := by
  decide +kernel

end Fixnum
