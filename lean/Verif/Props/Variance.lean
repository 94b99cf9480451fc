import Verif.Props.ErrorMax
import Verif.Props.Exponential
import Verif.Props.Horner
import Verif.Props.Power

/-! # Property C128: the variance

Client code: the mean by `rdiv`, the squares of the differences to it by `csub` and `rmul`, and their mean.
The formula in one pass, the mean of the squares less the square of the mean, is refuted. -/

namespace Fixnum

open Res Spec

variable {L : Layout} {P : Nat}

/-- The client: the sum of the squares of the differences to `m`. -/
def sumSquares (cfg : Cfg) (mode : RoundMode) (m : FP L P) : List (FP L P) → Res ArithErr (FP L P)
  | [] => .ok FP.zero
  | x :: xs => do
    let s ← sumSquares cfg mode m xs
    let d ← FP.csub x m
    let q ← FP.rmul cfg d d mode
    FP.cadd s q

/-- The client: the variance, `n` the number of elements. -/
def variance (cfg : Cfg) (xs : List (FP L P)) (n : BitVec L.bits) (mode : RoundMode) :
    Res ArithErr (FP L P) := do
  let m ← mean cfg xs n mode
  let s ← sumSquares cfg mode m xs
  FP.rdivInt cfg s n mode

/-- The other client: the mean of the squares less the square of the mean. -/
def onePass (cfg : Cfg) (xs : List (FP L P)) (n : BitVec L.bits) (mode : RoundMode) :
    Res ArithErr (FP L P) := do
  let m ← mean cfg xs n mode
  let s ← sumSquares cfg mode FP.zero xs
  let e ← FP.rdivInt cfg s n mode
  let q ← FP.rmul cfg m m mode
  FP.csub e q

namespace Spec

/-- The mean of rational numbers. -/
def average (qs : List ℚ) : ℚ := qs.sum / qs.length

/-- The variance of rational numbers. -/
def spread (qs : List ℚ) : ℚ := (qs.map fun q => (q - average qs) ^ 2).sum / qs.length

end Spec

/-- The sum of squares around any point. -/
theorem sum_shift (qs : List ℚ) (a m : ℚ) :
    (qs.map fun q => (q - m) ^ 2).sum =
      (qs.map fun q => (q - a) ^ 2).sum + 2 * (a - m) * (qs.sum - qs.length * a) +
        qs.length * (a - m) ^ 2 := by
  induction qs with
  | nil => simp
  | cons q qs ih =>
    simp only [List.map_cons, List.sum_cons, List.length_cons]
    rw [ih]
    push_cast
    ring

/-- Around any point, the mean square exceeds the variance by the square of the distance. -/
theorem mean_square (qs : List ℚ) (h : qs ≠ []) (m : ℚ) :
    (qs.map fun q => (q - m) ^ 2).sum / qs.length = Spec.spread qs + (Spec.average qs - m) ^ 2 := by
  have hl : (0 : ℚ) < qs.length := by exact_mod_cast List.length_pos_iff.2 h
  have e := sum_shift qs (Spec.average qs) m
  have h0 : qs.sum - qs.length * Spec.average qs = 0 := by
    unfold Spec.average; field_simp; ring
  rw [e, h0]
  unfold Spec.spread
  field_simp
  ring

/-- A number of the type less than a unit below zero is not below zero. -/
theorem nonneg_of_gt {x : FP L P} (h : -(1 / 10 ^ P) < value x) : 0 ≤ value x := by
  rw [value_nonneg_iff]
  have hp := ten_pow_pos P
  unfold value at h
  rw [← neg_div, div_lt_div_iff_of_pos_right hp] at h
  have : (-1 : Int) < x.inner.toInt := by exact_mod_cast h
  omega

/-- Two numbers of the type less than a unit apart are the same. -/
theorem eq_of_close {x y : FP L P} (h : |value x - value y| < 1 / 10 ^ P) : value x = value y := by
  have hp := ten_pow_pos P
  unfold value at h ⊢
  rw [← sub_div, abs_div, abs_of_pos hp, div_lt_div_iff_of_pos_right hp, abs_lt] at h
  have h1 : (-1 : Int) < x.inner.toInt - y.inner.toInt := by exact_mod_cast h.1
  have h2 : x.inner.toInt - y.inner.toInt < 1 := by exact_mod_cast h.2
  rw [show x.inner.toInt = y.inner.toInt by omega]

theorem sumSquares_spec {cfg : Cfg} (hv : Valid cfg L P) (mode : RoundMode) (m : FP L P)
    (xs : List (FP L P)) : ∀ s, sumSquares cfg mode m xs = .ok s →
      0 ≤ value s ∧
      |value s - ((xs.map value).map fun q => (q - value m) ^ 2).sum| ≤ xs.length / 10 ^ P ∧
      (mode = .ceil → ((xs.map value).map fun q => (q - value m) ^ 2).sum ≤ value s) := by
  induction xs with
  | nil =>
    intro s h
    cases h
    simp [C52_zero]
  | cons x xs ih =>
    intro s h
    unfold sumSquares at h
    obtain ⟨t, h1, h⟩ := bind_ok_of h
    obtain ⟨d, h2, h⟩ := bind_ok_of h
    obtain ⟨q, h3, h⟩ := bind_ok_of h
    obtain ⟨i1, i2, i3⟩ := ih t h1
    have vd := C02_csub_ok x m d h2
    have vs := C01_cadd_ok t q s h
    have e := (C116_below_one_unit (ε := ArithErr) hv d d q 1#_ mode).1 h3
    rw [abs_lt] at e
    have hq : 0 ≤ value q := nonneg_of_gt (by nlinarith [mul_self_nonneg (value d)])
    simp only [List.map_cons, List.sum_cons, List.length_cons]
    have hs : (value x - value m) ^ 2 = value d * value d := by rw [vd]; ring
    rw [hs, vs]
    push_cast
    rw [abs_le] at i2 ⊢
    rw [add_div]
    refine ⟨by linarith, ⟨by linarith, by linarith⟩, fun hm => ?_⟩
    subst hm
    have := ((C07_rmul_partial hv d d .ceil (fun e => absurd e (by simp))).ok_iff q).1 h3
    have := (roundTo_ceil_spec P (value d * value d)).1
    linarith [i3 rfl]

theorem variance_spec {cfg : Cfg} (hv : Valid cfg L P) {mode : RoundMode} {xs : List (FP L P)}
    {n : BitVec L.bits} (hn : n.toInt = xs.length) {v : FP L P}
    (h : variance cfg xs n mode = .ok v) :
    ∃ m s : FP L P, |value m - Spec.average (xs.map value)| < 1 / 10 ^ P ∧
      sumSquares cfg mode m xs = .ok s ∧ FP.rdivInt cfg s n mode = .ok v ∧
      |value v - value s / xs.length| < 1 / 10 ^ P := by
  unfold variance at h
  obtain ⟨m, h1, h⟩ := bind_ok_of h
  obtain ⟨s, h2, h⟩ := bind_ok_of h
  unfold mean at h1
  obtain ⟨t, h3, h1⟩ := bind_ok_of h1
  have vt := total_value xs t h3
  have e1 := (C116_below_one_unit (ε := ArithErr) hv t t m n mode).2.2.1 h1
  have e2 := (C116_below_one_unit (ε := ArithErr) hv s s v n mode).2.2.1 h
  rw [hn] at e1 e2
  push_cast at e1 e2
  refine ⟨m, s, ?_, h2, h, e2⟩
  unfold Spec.average
  rw [List.length_map, ← vt]
  exact e1

/-- **C128** never negative, in any mode and build. -/
theorem C128_nonneg {cfg : Cfg} (hv : Valid cfg L P) {mode : RoundMode} {xs : List (FP L P)}
    {n : BitVec L.bits} (hn : n.toInt = xs.length) {v : FP L P}
    (h : variance cfg xs n mode = .ok v) : 0 ≤ value v := by
  obtain ⟨m, s, -, h2, -, h4⟩ := variance_spec hv hn h
  have hs := (sumSquares_spec hv mode m xs s h2).1
  have : 0 ≤ value s / xs.length := by positivity
  rw [abs_lt] at h4
  exact nonneg_of_gt (by linarith)

/-- Four numbers whose variance is 1.25, in every mode. -/
example : ∀ mode ∈ [RoundMode.ceil, .nearest, .floor],
    variance debugCfg [⟨10⟩, ⟨20⟩, ⟨30⟩, (⟨40⟩ : FP .i64 1)] 4#64 mode =
      .ok (if mode = .ceil then ⟨13⟩ else if mode = .nearest then ⟨13⟩ else ⟨12⟩) := by decide +kernel
example := C128_nonneg (cfg := debugCfg) (mode := .floor) (by decide)
  (xs := [⟨10⟩, ⟨20⟩, ⟨30⟩, (⟨40⟩ : FP .i64 1)]) (n := 4#64) (by decide) (v := ⟨12⟩)
  (by decide +kernel)

/-- **C128** within two units and a bit of the variance, in every mode and build, for any number of
elements. -/
theorem C128_error {cfg : Cfg} (hv : Valid cfg L P) {mode : RoundMode} {xs : List (FP L P)}
    {n : BitVec L.bits} (hx : xs ≠ []) (hn : n.toInt = xs.length) {v : FP L P}
    (h : variance cfg xs n mode = .ok v) :
    -(2 / 10 ^ P) < value v - Spec.spread (xs.map value) ∧
    value v - Spec.spread (xs.map value) < 2 / 10 ^ P + (1 / 10 ^ P) ^ 2 := by
  obtain ⟨m, s, h1, h2, -, h4⟩ := variance_spec hv hn h
  have hs := (sumSquares_spec hv mode m xs s h2).2.1
  have hl : (0 : ℚ) < xs.length := by exact_mod_cast List.length_pos_iff.2 hx
  have e := mean_square (xs.map value) (by simpa using hx) (value m)
  rw [List.length_map] at e
  have hd : |value s / xs.length - (((xs.map value).map fun q => (q - value m) ^ 2).sum) / xs.length| ≤
      1 / 10 ^ P := by
    rw [← sub_div, abs_div, abs_of_pos hl, div_le_iff₀ hl]
    calc _ ≤ _ := hs
      _ = _ := by ring
  rw [e, abs_le] at hd
  rw [abs_lt] at h1 h4
  have hsq : (Spec.average (xs.map value) - value m) ^ 2 < (1 / 10 ^ P) ^ 2 := by
    apply sq_lt_sq'
    · linarith
    · linarith
  have hsq0 := sq_nonneg (Spec.average (xs.map value) - value m)
  have e2 : (2 : ℚ) / 10 ^ P = 1 / 10 ^ P + 1 / 10 ^ P := by ring
  rw [e2]
  constructor <;> linarith

example := C128_error (cfg := debugCfg) (mode := .floor) (by decide)
  (xs := [⟨10⟩, ⟨20⟩, ⟨30⟩, (⟨40⟩ : FP .i64 1)]) (n := 4#64) (by simp) (by decide) (v := ⟨12⟩)
  (by decide +kernel)
/-- With one digit, 0.1 and 0.2 have the variance 0.0025; `Ceil` makes it 0.1. -/
example : variance debugCfg [⟨1⟩, (⟨2⟩ : FP .i64 1)] 2#64 .ceil = .ok ⟨1⟩ ∧
    variance debugCfg [⟨1⟩, (⟨2⟩ : FP .i64 1)] 2#64 .floor = .ok ⟨0⟩ := by decide +kernel

/-- **C128** with `Ceil` never less than the variance: an error of the mean can only add. -/
theorem C128_ceil {cfg : Cfg} (hv : Valid cfg L P) {xs : List (FP L P)}
    {n : BitVec L.bits} (hx : xs ≠ []) (hn : n.toInt = xs.length) {v : FP L P}
    (h : variance cfg xs n .ceil = .ok v) : Spec.spread (xs.map value) ≤ value v := by
  obtain ⟨m, s, -, h2, h3, -⟩ := variance_spec hv hn h
  have hs := (sumSquares_spec hv .ceil m xs s h2).2.2 rfl
  have hl : (0 : ℚ) < xs.length := by exact_mod_cast List.length_pos_iff.2 hx
  have e := mean_square (xs.map value) (by simpa using hx) (value m)
  rw [List.length_map] at e
  have hn0 : 0 < n.toInt := by
    rw [hn]; exact_mod_cast List.length_pos_iff.2 hx
  have vv := (rdivInt_directed (by simp) hn0).1 h3
  have hc := (roundTo_ceil_spec P (value s / (n.toInt : ℚ))).1
  rw [← vv, hn] at hc
  push_cast at hc
  have := div_le_div_of_nonneg_right hs hl.le
  have := sq_nonneg (Spec.average (xs.map value) - value m)
  linarith

example := C128_ceil (cfg := debugCfg) (by decide)
  (xs := [⟨10⟩, ⟨20⟩, ⟨30⟩, (⟨40⟩ : FP .i64 1)]) (n := 4#64) (by simp) (by decide) (v := ⟨13⟩)
  (by decide +kernel)

/-- **C128** equal numbers have the variance 0, in every mode and build. -/
theorem C128_constant {cfg : Cfg} (hv : Valid cfg L P) {mode : RoundMode} {xs : List (FP L P)}
    {n : BitVec L.bits} (hx : xs ≠ []) (hn : n.toInt = xs.length) {x v : FP L P}
    (hc : ∀ y ∈ xs, y = x) (h : variance cfg xs n mode = .ok v) : value v = 0 := by
  obtain ⟨m, s, h1, h2, -, h4⟩ := variance_spec hv hn h
  have hl : (0 : ℚ) < xs.length := by exact_mod_cast List.length_pos_iff.2 hx
  have hrep : xs = List.replicate xs.length x := List.eq_replicate_iff.2 ⟨rfl, hc⟩
  have ha : Spec.average (xs.map value) = value x := by
    unfold Spec.average
    rw [List.length_map, hrep]
    simp only [List.map_replicate, List.sum_replicate, List.length_replicate, nsmul_eq_mul]
    rw [mul_comm, mul_div_assoc, div_self hl.ne', mul_one]
  rw [ha] at h1
  have hm := eq_of_close h1
  have hs : ∀ (ys : List (FP L P)) s, (∀ y ∈ ys, y = x) → sumSquares cfg mode m ys = .ok s →
      value s = 0 := by
    intro ys
    induction ys with
    | nil => intro s _ h; cases h; exact C52_zero
    | cons y ys ih =>
      intro s hy h
      unfold sumSquares at h
      obtain ⟨t, g1, h⟩ := bind_ok_of h
      obtain ⟨d, g2, h⟩ := bind_ok_of h
      obtain ⟨q, g3, h⟩ := bind_ok_of h
      have vd := C02_csub_ok y m d g2
      rw [hy y List.mem_cons_self, hm, sub_self] at vd
      have e := (C116_below_one_unit (ε := ArithErr) hv d d q 1#_ mode).1 g3
      rw [vd, mul_zero, ← C52_zero (L := L) (P := P)] at e
      rw [C01_cadd_ok t q s h, ih t (fun z hz => hy z (List.mem_cons_of_mem _ hz)) g1, eq_of_close e,
        C52_zero, add_zero]
  rw [hs xs s hc h2, zero_div, ← C52_zero (L := L) (P := P)] at h4
  rw [eq_of_close h4, C52_zero]

example := C128_constant (cfg := debugCfg) (mode := .nearest) (by decide)
  (xs := [⟨17⟩, ⟨17⟩, (⟨17⟩ : FP .i64 1)]) (n := 3#64) (by simp) (by decide) (x := ⟨17⟩) (v := ⟨0⟩)
  (by simp) (by decide +kernel)

/-- **C128** the formula in one pass gives a negative variance in every mode. -/
theorem C128_one_pass : ∀ mode, ∃ x y v : FP .i64 1, x ≠ y ∧
    onePass debugCfg [x, y] 2#64 mode = .ok v ∧ value v < 0 := by
  intro mode
  cases mode
  · exact ⟨⟨7⟩, ⟨8⟩, ⟨-1⟩, by decide, by decide +kernel, by rw [value_eq _ (-1) (by decide)]; norm_num⟩
  · exact ⟨⟨8⟩, ⟨9⟩, ⟨-1⟩, by decide, by decide +kernel, by rw [value_eq _ (-1) (by decide)]; norm_num⟩
  · exact ⟨⟨-7⟩, ⟨-8⟩, ⟨-1⟩, by decide, by decide +kernel,
      by rw [value_eq _ (-1) (by decide)]; norm_num⟩

/-- In two passes the same numbers give no negative variance. -/
example : variance debugCfg [⟨7⟩, (⟨8⟩ : FP .i64 1)] 2#64 .ceil = .ok ⟨1⟩ ∧
    variance debugCfg [⟨8⟩, (⟨9⟩ : FP .i64 1)] 2#64 .nearest = .ok ⟨0⟩ ∧
    variance debugCfg [⟨-7⟩, (⟨-8⟩ : FP .i64 1)] 2#64 .floor = .ok ⟨0⟩ := by decide +kernel

theorem total_bounded {M : ℚ} (xs : List (FP L P)) (hM : ∀ x ∈ xs, |value x| ≤ M)
    (h : xs.length * M ≤ maxValue L P) : ∃ s, total xs = .ok s ∧ |value s| ≤ xs.length * M := by
  induction xs with
  | nil => exact ⟨FP.zero, rfl, by rw [C52_zero]; simp⟩
  | cons x xs ih =>
    have hx := hM x List.mem_cons_self
    have hM0 := le_trans (abs_nonneg _) hx
    rw [List.length_cons] at h ⊢
    push_cast at h ⊢
    obtain ⟨s, h1, h2⟩ := ih (fun y hy => hM y (List.mem_cons_of_mem _ hy)) (by linarith)
    have ha : |value s + value x| ≤ (xs.length + 1) * M := by
      have := abs_add_le (value s) (value x)
      linarith
    obtain ⟨t, t1, t2⟩ := (C01_cadd_exact s x).1 (by
      have e : value s + value x = ((s.inner.toInt + x.inner.toInt : Int) : ℚ) / 10 ^ P := by
        unfold value; push_cast; ring
      have := le_trans ha h
      rw [e] at this ⊢
      exact representable_of_abs_le this)
    refine ⟨t, ?_, by rw [t2]; exact ha⟩
    unfold total
    rw [h1, ok_bind, t1]

theorem sumSquares_bounded {cfg : Cfg} (hv : Valid cfg L P) {mode : RoundMode}
    (hm : mode = .nearest → ¬ (L = .i128 ∧ P = 38))
    {D : ℚ} {m : FP L P} (xs : List (FP L P)) (hD : ∀ x ∈ xs, |value x - value m| ≤ D)
    (hD1 : D ≤ maxValue L P) (h : xs.length * (D ^ 2 + 1 / 10 ^ P) ≤ maxValue L P) :
    ∃ s, sumSquares cfg mode m xs = .ok s ∧ 0 ≤ value s ∧
      value s ≤ xs.length * (D ^ 2 + 1 / 10 ^ P) := by
  have hp := ten_pow_pos P
  have hu : (0 : ℚ) < 1 / 10 ^ P := by positivity
  induction xs with
  | nil => exact ⟨FP.zero, rfl, by rw [C52_zero], by rw [C52_zero]; simp⟩
  | cons x xs ih =>
    have hx := hD x List.mem_cons_self
    have hl : (0 : ℚ) ≤ xs.length := by positivity
    have hq0 : 0 ≤ D ^ 2 + 1 / 10 ^ P := by positivity
    rw [List.length_cons] at h ⊢
    push_cast at h ⊢
    obtain ⟨s, h1, h2, h3⟩ := ih (fun y hy => hD y (List.mem_cons_of_mem _ hy)) (by linarith)
    obtain ⟨d, d1, d2⟩ := (C02_csub_exact x m).1 (by
      have e : value x - value m = ((x.inner.toInt - m.inner.toInt : Int) : ℚ) / 10 ^ P := by
        unfold value; push_cast; ring
      have := le_trans hx hD1
      rw [e] at this ⊢
      exact representable_of_abs_le this)
    have hsq : value d * value d ≤ D ^ 2 := by
      rw [d2, ← pow_two, ← sq_abs (value x - value m)]
      exact pow_le_pow_left₀ (abs_nonneg _) hx 2
    have q0 := roundTo_nonneg P mode (mul_self_nonneg (value d))
    have q1 := (abs_lt.1 (roundTo_error P mode (value d * value d))).2
    have q2 : roundTo P mode (value d * value d) ≤ D ^ 2 + 1 / 10 ^ P := by linarith
    have hn := mul_nonneg hl hq0
    obtain ⟨q, k1, k2⟩ := (C07_rmul_partial hv d d mode hm).1 (by
      have : |roundTo P mode (value d * value d)| ≤ maxValue L P := by
        rw [abs_of_nonneg q0]; linarith
      unfold roundTo at this ⊢
      exact representable_of_abs_le this)
    have hs : value s + value q ≤ (xs.length + 1) * (D ^ 2 + 1 / 10 ^ P) := by
      rw [k2]; linarith
    have hs0 : 0 ≤ value s + value q := by rw [k2]; linarith
    obtain ⟨t, t1, t2⟩ := (C01_cadd_exact s q).1 (by
      have e : value s + value q = ((s.inner.toInt + q.inner.toInt : Int) : ℚ) / 10 ^ P := by
        unfold value; push_cast; ring
      have : |value s + value q| ≤ maxValue L P := by rw [abs_of_nonneg hs0]; linarith
      rw [e] at this ⊢
      exact representable_of_abs_le this)
    refine ⟨t, ?_, by rw [t2]; exact hs0, by rw [t2]; exact hs⟩
    unfold sumSquares
    rw [h1, ok_bind, d1, ok_bind, k1, ok_bind, t1]

/-- **C128** always computed, if for numbers of at most `M` in absolute value the sums `n M` and
`n (4 M^2 + 10^-P)` are in the range. -/
theorem C128_returns {cfg : Cfg} (hv : Valid cfg L P) {mode : RoundMode} {xs : List (FP L P)}
    (hm : mode = .nearest → ¬ (L = .i128 ∧ P = 38) ∧ 2 * (xs.length : Int) ≤ rawMax L)
    {n : BitVec L.bits} (hx : xs ≠ []) (hn : n.toInt = xs.length) (M : FP L P)
    (hM : ∀ x ∈ xs, |value x| ≤ value M) (h1 : xs.length * value M ≤ maxValue L P)
    (h2 : 2 * value M ≤ maxValue L P)
    (h3 : xs.length * ((2 * value M) ^ 2 + 1 / 10 ^ P) ≤ maxValue L P) :
    ∃ v, variance cfg xs n mode = .ok v := by
  have hl : 0 < xs.length := List.length_pos_iff.2 hx
  have hn0 : 0 < n.toInt := by rw [hn]; exact_mod_cast hl
  have hq : (1 : ℚ) ≤ xs.length := by exact_mod_cast hl
  obtain ⟨y, hy⟩ := List.exists_mem_of_ne_nil xs hx
  have hM0 : 0 ≤ value M := le_trans (abs_nonneg _) (hM y hy)
  obtain ⟨t, t1, t2⟩ := total_bounded xs hM h1
  obtain ⟨m, m1⟩ := C86_mean_exists cfg xs t n mode (fun e => (hm e).2) hn hx t1
  have hmM : |value m| ≤ value M := by
    have g := m1
    unfold mean at g
    rw [t1, ok_bind] at g
    have vm := ((rdivInt_exact cfg t n mode hn0 fun e => by rw [hn]; exact (hm e).2).ok_iff m).1 g
    have hq2 : |value t / (n.toInt : ℚ)| ≤ |value M| := by
      rw [hn, abs_of_nonneg hM0, abs_div]
      push_cast
      rw [abs_of_nonneg (by linarith : (0 : ℚ) ≤ xs.length), div_le_iff₀ (by linarith)]
      linarith
    have := abs_roundTo_le mode M hq2
    rwa [← vm, abs_of_nonneg hM0] at this
  obtain ⟨s, s1, s2, s3⟩ := sumSquares_bounded hv (fun e => (hm e).1) (m := m) xs (D := 2 * value M) (by
    intro x hx
    have a := abs_le.1 (hM x hx)
    have b := abs_le.1 hmM
    rw [abs_le]
    constructor <;> linarith) h2 h3
  obtain ⟨v, v1, -⟩ := (rdivInt_exact cfg s n mode hn0
    fun e => by rw [hn]; exact (hm e).2).1 (by
      have hz : value (FP.zero : FP L P) = 0 := C52_zero
      have hr : (1 : ℚ) ≤ (n.toInt : ℚ) := by exact_mod_cast hn0
      apply representable_within mode FP.zero s
      · rw [hz]; positivity
      · exact div_le_self s2 hr)
  refine ⟨v, ?_⟩
  unfold variance
  rw [m1, ok_bind, s1, ok_bind, v1]

example := C128_returns (cfg := debugCfg) (mode := .nearest) (by decide)
  (xs := [⟨10⟩, ⟨-20⟩, (⟨30⟩ : FP .i16 1)]) (by decide) (n := 3#16) (by simp) (by decide) (M := ⟨30⟩)
  (by
    have e : value (⟨30⟩ : FP .i16 1) = 3 := by rw [value_eq _ 30 (by decide)]; norm_num
    intro x hx
    simp only [List.mem_cons, List.not_mem_nil, or_false] at hx
    rcases hx with rfl | rfl | rfl
    · rw [e, value_eq _ 10 (by decide)]; norm_num
    · rw [e, value_eq _ (-20) (by decide)]; norm_num
    · rw [e]; norm_num)
  (by rw [value_eq _ 30 (by decide)]; unfold maxValue; norm_num [rawMax, Layout.bits])
  (by rw [value_eq _ 30 (by decide)]; unfold maxValue; norm_num [rawMax, Layout.bits])
  (by rw [value_eq _ 30 (by decide)]; unfold maxValue; norm_num [rawMax, Layout.bits])
/-- Where the squares are out of the range. -/
example : variance debugCfg [⟨9000⟩, (⟨-9000⟩ : FP .i16 1)] 2#16 .floor = .err .overflow := by
  decide +kernel

end Fixnum
