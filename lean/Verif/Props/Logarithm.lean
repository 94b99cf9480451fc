import Verif.Props.Horner
import Verif.Props.Power
import Mathlib.Analysis.SpecialFunctions.Log.Base

/-! # Property C127: binary logarithms by repeated squaring

Client code: `y = y.rmul(y, mode)?; if y >= TWO { y = y.rdiv(2, mode)?; digit 1 } else { digit 0 }`, one
binary digit of the logarithm per round. -/

namespace Fixnum

open Res Spec

variable {L : Layout} {P : Nat}

/-- The loop of the client: `n` rounds, `d` the digits so far as a number. -/
def logLoop (cfg : Cfg) (mode : RoundMode) (two : FP L P) : Nat → Nat → FP L P → Res ArithErr Nat
  | 0, d, _ => .ok d
  | n + 1, d, y => do
    let y ← FP.rmul cfg y y mode
    if FP.cmp y two = .lt then logLoop cfg mode two n (2 * d) y
    else do
      let y ← FP.rdivInt cfg y (BitVec.ofInt _ 2) mode
      logLoop cfg mode two n (2 * d + 1) y

/-- The client: `n` binary digits of the logarithm of a number from 1 to 2. -/
def binLog (cfg : Cfg) (mode : RoundMode) (n : Nat) (x : FP L P) : Res ArithErr Nat := do
  let one ← FP.one cfg
  let two ← FP.cadd one one
  logLoop cfg mode two n 0 x

theorem roundTo_int (P : Nat) (mode : RoundMode) (z : Int) : roundTo P mode z = z := by
  unfold roundTo
  have : (z : ℚ) * 10 ^ P = ((z * 10 ^ P : Int) : ℚ) := by push_cast; ring
  rw [this, round_int]
  push_cast
  rw [mul_div_assoc, div_self (ten_pow_ne P), mul_one]

theorem two_toInt (L : Layout) : (BitVec.ofInt L.bits 2).toInt = 2 := by cases L <;> decide

/-- One round: the number that is squared, and what becomes of it. -/
theorem logLoop_succ {cfg : Cfg} (hv : Valid cfg L P) {mode : RoundMode} {two y : FP L P} (h2 : value two = 2) {n d D : Nat}
    (h : logLoop cfg mode two (n + 1) d y = .ok D) :
    ∃ z d', logLoop cfg mode two n d' z = .ok D ∧
      ((roundTo P mode (value y * value y) < 2 ∧ d' = 2 * d ∧
          value z = roundTo P mode (value y * value y)) ∨
       (2 ≤ roundTo P mode (value y * value y) ∧ d' = 2 * d + 1 ∧
          value z = roundTo P mode (roundTo P mode (value y * value y) / 2))) := by
  unfold logLoop at h
  obtain ⟨p, h1, h⟩ := bind_ok_of h
  have hne : ¬ (L = .i128 ∧ P = 38) := by
    rintro ⟨rfl, rfl⟩
    have h := ((fits_iff .i128 _).1 (toInt_fits two.inner)).2
    have e : ((two.inner.toInt : Int) : ℚ) = 2 * 10 ^ 38 := by
      unfold value at h2
      field_simp at h2
      exact_mod_cast h2
    have e : two.inner.toInt = 2 * 10 ^ 38 := by exact_mod_cast e
    rw [e] at h
    norm_num [rawMax, Layout.bits] at h
  have v1 := ((C07_rmul_partial hv y y mode (fun _ => hne)).ok_iff p).1 h1
  split at h
  · rename_i hc
    rw [C54_cmp, compare_lt_iff_lt, h2, v1] at hc
    exact ⟨p, 2 * d, h, .inl ⟨hc, rfl, v1⟩⟩
  · rename_i hc
    rw [C54_cmp, compare_lt_iff_lt, h2, v1, not_lt] at hc
    obtain ⟨q, h3, h⟩ := bind_ok_of h
    have v3 := ((C12_rdivInt_small_partial cfg p (BitVec.ofInt _ 2) mode
      (by rw [two_toInt]; omega) (by rw [two_toInt]; omega)
      (by rw [two_toInt]; cases L <;> norm_num [rawMax, Layout.bits])).ok_iff q).1 h3
    rw [two_toInt, v1] at v3
    exact ⟨q, 2 * d + 1, h, .inr ⟨hc, rfl, by rw [v3]; norm_num⟩⟩

theorem logLoop_floor {cfg : Cfg} (hv : Valid cfg L P) {two : FP L P} (h2 : value two = 2) (n : Nat) :
    ∀ (d D : Nat) (y : FP L P), 1 ≤ value y → value y < 2 →
      logLoop cfg .floor two n d y = .ok D →
      2 ^ D ≤ (2 ^ d * value y) ^ 2 ^ n ∧
      (2 ^ d * value y) ^ 2 ^ n * ((1 - 1 / 10 ^ P) ^ 2) ^ (2 ^ n - 1) < 2 ^ (D + 1) := by
  have hp := ten_pow_pos P
  have hu0 : (0 : ℚ) < 1 / 10 ^ P := by positivity
  have hu1 : (1 : ℚ) / 10 ^ P ≤ 1 := by
    rw [div_le_one hp]
    exact one_le_pow₀ (by norm_num)
  have hone : ∀ q : ℚ, 1 ≤ q → 1 ≤ roundTo P .floor q := by
    intro q hq
    have := roundTo_mono P .floor hq
    rwa [roundTo_one] at this
  have loss : ∀ q : ℚ, 1 ≤ q → q * (1 - 1 / 10 ^ P) ≤ roundTo P .floor q := by
    intro q hq
    have := roundTo_floor_gap P q
    nlinarith
  induction n with
  | zero =>
    intro d D y y1 y2 h
    unfold logLoop at h
    cases h
    have : (0 : ℚ) < 2 ^ d := by positivity
    simp only [pow_zero, pow_one, Nat.sub_self, mul_one, pow_succ]
    constructor <;> nlinarith
  | succ n ih =>
    intro d D y y1 y2 h
    obtain ⟨z, d', h', hz⟩ := logLoop_succ hv h2 h
    have hsq : 1 ≤ value y * value y := by nlinarith
    have hsq4 : value y * value y < 4 := by nlinarith
    have f1 := (roundTo_floor_spec P (value y * value y)).1
    have f2 := hone _ hsq
    have f3 := loss _ hsq
    set f := roundTo P .floor (value y * value y)
    have key : 1 ≤ value z ∧ value z < 2 ∧ 2 ^ d' * value z ≤ (2 ^ d * value y) ^ 2 ∧
        (2 ^ d * value y) ^ 2 * (1 - 1 / 10 ^ P) ^ 2 ≤ 2 ^ d' * value z := by
      have hd : (0 : ℚ) < 2 ^ d * 2 ^ d := by positivity
      have e0 : (2 ^ d * value y) ^ 2 = 2 ^ d * 2 ^ d * (value y * value y) := by ring
      rw [e0]
      rcases hz with ⟨k1, rfl, k3⟩ | ⟨k1, rfl, k3⟩
      · have e : (2 : ℚ) ^ (2 * d) = 2 ^ d * 2 ^ d := by rw [two_mul, pow_add]
        rw [k3, e]
        refine ⟨f2, k1, mul_le_mul_of_nonneg_left f1 hd.le, ?_⟩
        rw [mul_assoc]
        refine mul_le_mul_of_nonneg_left ?_ hd.le
        refine le_trans ?_ f3
        have : (1 - 1 / (10 : ℚ) ^ P) ^ 2 ≤ 1 - 1 / 10 ^ P := by nlinarith
        exact mul_le_mul_of_nonneg_left this (by linarith)
      · have e : (2 : ℚ) ^ (2 * d + 1) = 2 ^ d * 2 ^ d * 2 := by rw [pow_succ, two_mul, pow_add]
        have g1 := (roundTo_floor_spec P (f / 2)).1
        have g2 := hone (f / 2) (by linarith)
        have g3 := loss (f / 2) (by linarith)
        rw [k3, e]
        refine ⟨g2, by linarith, ?_, ?_⟩
        · rw [mul_assoc]
          exact mul_le_mul_of_nonneg_left (by linarith) hd.le
        · rw [mul_assoc, mul_assoc _ (2 : ℚ)]
          refine mul_le_mul_of_nonneg_left ?_ hd.le
          have := mul_le_mul_of_nonneg_right f3 (by linarith : (0 : ℚ) ≤ 1 - 1 / 10 ^ P)
          rw [pow_two]
          linarith
    obtain ⟨z1, z2, k1, k2⟩ := key
    obtain ⟨i1, i2⟩ := ih d' D z z1 z2 h'
    have hq0 : (0 : ℚ) ≤ 2 ^ d' * value z := by positivity
    have e1 : (2 ^ d * value y) ^ 2 ^ (n + 1) = ((2 ^ d * value y) ^ 2) ^ 2 ^ n := by
      rw [← pow_mul]
      congr 1
      rw [pow_succ, mul_comm]
    have hw : (0 : ℚ) ≤ (1 - 1 / 10 ^ P) ^ 2 := by positivity
    refine ⟨?_, ?_⟩
    · rw [e1]
      exact le_trans i1 (pow_le_pow_left₀ hq0 k1 _)
    · have hn : 1 ≤ 2 ^ n := Nat.one_le_two_pow
      have e2 : 2 ^ (n + 1) - 1 = 2 ^ n + (2 ^ n - 1) := by rw [pow_succ]; omega
      rw [e1, e2, pow_add, ← mul_assoc, ← mul_pow]
      refine lt_of_le_of_lt ?_ i2
      refine mul_le_mul_of_nonneg_right ?_ (by positivity)
      exact pow_le_pow_left₀ (by positivity) k2 _

theorem logLoop_ceil {cfg : Cfg} (hv : Valid cfg L P) {two : FP L P} (h2 : value two = 2) (n : Nat) :
    ∀ (d D : Nat) (y : FP L P), 1 ≤ value y → value y ≤ 2 →
      logLoop cfg .ceil two n d y = .ok D →
      (2 ^ d * value y) ^ 2 ^ n ≤ 2 ^ (D + 1) ∧
      2 ^ D ≤ (2 ^ d * value y) ^ 2 ^ n * ((1 + 1 / 10 ^ P) ^ 2) ^ (2 ^ n - 1) := by
  have hp := ten_pow_pos P
  have hu0 : (0 : ℚ) < 1 / 10 ^ P := by positivity
  have gain : ∀ q : ℚ, 1 ≤ q → roundTo P .ceil q ≤ q * (1 + 1 / 10 ^ P) := by
    intro q hq
    have := roundTo_ceil_gap P q
    nlinarith
  induction n with
  | zero =>
    intro d D y y1 y2 h
    unfold logLoop at h
    cases h
    have : (0 : ℚ) < 2 ^ d := by positivity
    simp only [pow_zero, pow_one, Nat.sub_self, mul_one, pow_succ]
    constructor <;> nlinarith
  | succ n ih =>
    intro d D y y1 y2 h
    obtain ⟨z, d', h', hz⟩ := logLoop_succ hv h2 h
    have hsq : 1 ≤ value y * value y := by nlinarith
    have hsq4 : value y * value y ≤ 4 := by nlinarith
    have f1 := (roundTo_ceil_spec P (value y * value y)).1
    have f3 := gain _ hsq
    have f4 : roundTo P .ceil (value y * value y) ≤ 4 := by
      have := roundTo_mono P .ceil hsq4
      have e := roundTo_int P .ceil 4
      push_cast at e
      rwa [e] at this
    set f := roundTo P .ceil (value y * value y)
    have key : 1 ≤ value z ∧ value z ≤ 2 ∧ (2 ^ d * value y) ^ 2 ≤ 2 ^ d' * value z ∧
        2 ^ d' * value z ≤ (2 ^ d * value y) ^ 2 * (1 + 1 / 10 ^ P) ^ 2 := by
      have hd : (0 : ℚ) < 2 ^ d * 2 ^ d := by positivity
      have e0 : (2 ^ d * value y) ^ 2 = 2 ^ d * 2 ^ d * (value y * value y) := by ring
      rw [e0]
      rcases hz with ⟨k1, rfl, k3⟩ | ⟨k1, rfl, k3⟩
      · have e : (2 : ℚ) ^ (2 * d) = 2 ^ d * 2 ^ d := by rw [two_mul, pow_add]
        rw [k3, e]
        refine ⟨by linarith, k1.le, mul_le_mul_of_nonneg_left f1 hd.le, ?_⟩
        rw [mul_assoc (2 ^ d * 2 ^ d)]
        refine mul_le_mul_of_nonneg_left ?_ hd.le
        refine le_trans f3 ?_
        have : 1 + 1 / (10 : ℚ) ^ P ≤ (1 + 1 / 10 ^ P) ^ 2 := by nlinarith
        exact mul_le_mul_of_nonneg_left this (by linarith)
      · have e : (2 : ℚ) ^ (2 * d + 1) = 2 ^ d * 2 ^ d * 2 := by rw [pow_succ, two_mul, pow_add]
        have g1 := (roundTo_ceil_spec P (f / 2)).1
        have g3 := gain (f / 2) (by linarith)
        have g4 : roundTo P .ceil (f / 2) ≤ 2 := by
          have := roundTo_mono P .ceil (by linarith : f / 2 ≤ 2)
          have e := roundTo_int P .ceil 2
          push_cast at e
          rwa [e] at this
        rw [k3, e]
        refine ⟨by linarith, g4, ?_, ?_⟩
        · rw [mul_assoc (2 ^ d * 2 ^ d)]
          exact mul_le_mul_of_nonneg_left (by linarith) hd.le
        · rw [mul_assoc (2 ^ d * 2 ^ d), mul_assoc (2 ^ d * 2 ^ d)]
          refine mul_le_mul_of_nonneg_left ?_ hd.le
          have := mul_le_mul_of_nonneg_right f3 (by linarith : (0 : ℚ) ≤ 1 + 1 / 10 ^ P)
          rw [pow_two]
          linarith
    obtain ⟨z1, z2, k1, k2⟩ := key
    obtain ⟨i1, i2⟩ := ih d' D z z1 z2 h'
    have hz0 : (0 : ℚ) ≤ value z := by linarith
    have hy0 : (0 : ℚ) ≤ value y := by linarith
    have e1 : (2 ^ d * value y) ^ 2 ^ (n + 1) = ((2 ^ d * value y) ^ 2) ^ 2 ^ n := by
      rw [← pow_mul]
      congr 1
      rw [pow_succ, mul_comm]
    refine ⟨?_, ?_⟩
    · rw [e1]
      exact le_trans (pow_le_pow_left₀ (by positivity) k1 _) i1
    · have hn : 1 ≤ 2 ^ n := Nat.one_le_two_pow
      have e2 : 2 ^ (n + 1) - 1 = 2 ^ n + (2 ^ n - 1) := by rw [pow_succ]; omega
      rw [e1, e2, pow_add, ← mul_assoc, ← mul_pow]
      refine le_trans i2 ?_
      refine mul_le_mul_of_nonneg_right ?_ (by positivity)
      exact pow_le_pow_left₀ (by positivity) k2 _

theorem logLoop_nearest {cfg : Cfg} (hv : Valid cfg L P) {two : FP L P} (h2 : value two = 2)
    (n : Nat) : ∀ (d D : Nat) (y : FP L P), 1 ≤ value y → value y ≤ 2 →
      logLoop cfg .nearest two n d y = .ok D →
      (2 ^ d * value y) ^ 2 ^ n * ((1 - 1 / 2 / 10 ^ P) ^ 2) ^ (2 ^ n - 1) ≤ 2 ^ (D + 1) ∧
      2 ^ D ≤ (2 ^ d * value y) ^ 2 ^ n * ((1 + 1 / 2 / 10 ^ P) ^ 2) ^ (2 ^ n - 1) := by
  have hp := ten_pow_pos P
  have hu0 : (0 : ℚ) < 1 / 2 / 10 ^ P := by positivity
  have hu1 : (1 : ℚ) / 2 / 10 ^ P ≤ 1 := by
    rw [div_le_one hp]
    exact le_trans (by norm_num) (one_le_pow₀ (by norm_num : (1 : ℚ) ≤ 10))
  have err : ∀ q : ℚ, 1 ≤ q → roundTo P .nearest q ≤ q * (1 + 1 / 2 / 10 ^ P) ∧
      q * (1 - 1 / 2 / 10 ^ P) ≤ roundTo P .nearest q := by
    intro q hq
    have := abs_le.1 (roundTo_nearest_error P q)
    constructor <;> nlinarith [this.1, this.2]
  have lo : ∀ q : ℚ, 1 ≤ q → 1 ≤ roundTo P .nearest q := by
    intro q hq
    have := roundTo_mono P .nearest hq
    rwa [roundTo_one] at this
  have hi : ∀ (k : Int) (q : ℚ), q ≤ k → roundTo P .nearest q ≤ k := by
    intro k q hq
    have := roundTo_mono P .nearest hq
    rwa [roundTo_int] at this
  induction n with
  | zero =>
    intro d D y y1 y2 h
    unfold logLoop at h
    cases h
    have : (0 : ℚ) < 2 ^ d := by positivity
    simp only [pow_zero, pow_one, Nat.sub_self, mul_one, pow_succ]
    constructor <;> nlinarith
  | succ n ih =>
    intro d D y y1 y2 h
    obtain ⟨z, d', h', hz⟩ := logLoop_succ hv h2 h
    have hsq : 1 ≤ value y * value y := by nlinarith
    have f1 := lo _ hsq
    have f4 : roundTo P .nearest (value y * value y) ≤ 4 := by
      exact_mod_cast hi 4 _ (by push_cast; nlinarith)
    obtain ⟨f2, f3⟩ := err _ hsq
    set f := roundTo P .nearest (value y * value y)
    have key : 1 ≤ value z ∧ value z ≤ 2 ∧
        (2 ^ d * value y) ^ 2 * (1 - 1 / 2 / 10 ^ P) ^ 2 ≤ 2 ^ d' * value z ∧
        2 ^ d' * value z ≤ (2 ^ d * value y) ^ 2 * (1 + 1 / 2 / 10 ^ P) ^ 2 := by
      have hd : (0 : ℚ) < 2 ^ d * 2 ^ d := by positivity
      have e0 : (2 ^ d * value y) ^ 2 = 2 ^ d * 2 ^ d * (value y * value y) := by ring
      rw [e0]
      rcases hz with ⟨k1, rfl, k3⟩ | ⟨k1, rfl, k3⟩
      · have e : (2 : ℚ) ^ (2 * d) = 2 ^ d * 2 ^ d := by rw [two_mul, pow_add]
        rw [k3, e, mul_assoc (2 ^ d * 2 ^ d), mul_assoc (2 ^ d * 2 ^ d)]
        refine ⟨f1, k1.le, mul_le_mul_of_nonneg_left (le_trans ?_ f3) hd.le,
          mul_le_mul_of_nonneg_left (le_trans f2 ?_) hd.le⟩
        · exact mul_le_mul_of_nonneg_left (by nlinarith) (by linarith)
        · exact mul_le_mul_of_nonneg_left (by nlinarith) (by linarith)
      · have e : (2 : ℚ) ^ (2 * d + 1) = 2 ^ d * 2 ^ d * 2 := by rw [pow_succ, two_mul, pow_add]
        have g1 := lo (f / 2) (by linarith)
        have g4 : roundTo P .nearest (f / 2) ≤ 2 := by
          exact_mod_cast hi 2 _ (by push_cast; linarith)
        obtain ⟨g2, g3⟩ := err (f / 2) (by linarith)
        rw [k3, e, mul_assoc (2 ^ d * 2 ^ d), mul_assoc (2 ^ d * 2 ^ d), mul_assoc (2 ^ d * 2 ^ d)]
        refine ⟨g1, g4, mul_le_mul_of_nonneg_left ?_ hd.le, mul_le_mul_of_nonneg_left ?_ hd.le⟩
        · have := mul_le_mul_of_nonneg_right f3 (by linarith : (0 : ℚ) ≤ 1 - 1 / 2 / 10 ^ P)
          rw [pow_two]
          linarith
        · have := mul_le_mul_of_nonneg_right f2 (by linarith : (0 : ℚ) ≤ 1 + 1 / 2 / 10 ^ P)
          rw [pow_two]
          linarith
    obtain ⟨z1, z2, k1, k2⟩ := key
    obtain ⟨i1, i2⟩ := ih d' D z z1 z2 h'
    have hz0 : (0 : ℚ) ≤ value z := by linarith
    have hy0 : (0 : ℚ) ≤ value y := by linarith
    have e1 : (2 ^ d * value y) ^ 2 ^ (n + 1) = ((2 ^ d * value y) ^ 2) ^ 2 ^ n := by
      rw [← pow_mul]
      congr 1
      rw [pow_succ, mul_comm]
    have hn : 1 ≤ 2 ^ n := Nat.one_le_two_pow
    have e2 : 2 ^ (n + 1) - 1 = 2 ^ n + (2 ^ n - 1) := by rw [pow_succ]; omega
    rw [e1, e2]
    refine ⟨le_trans ?_ i1, le_trans i2 ?_⟩ <;> rw [pow_add, ← mul_assoc, ← mul_pow]
    · exact mul_le_mul_of_nonneg_right (pow_le_pow_left₀ (by positivity) k1 _) (by positivity)
    · exact mul_le_mul_of_nonneg_right (pow_le_pow_left₀ (by positivity) k2 _) (by positivity)

theorem binLog_loop {cfg : Cfg} (hv : Valid cfg L P) {mode : RoundMode} {n D : Nat} {x : FP L P}
    (h : binLog cfg mode n x = .ok D) :
    ∃ two : FP L P, value two = 2 ∧ logLoop cfg mode two n 0 x = .ok D := by
  unfold binLog at h
  obtain ⟨o, h1, h⟩ := bind_ok_of h
  obtain ⟨t, h2, h⟩ := bind_ok_of h
  obtain ⟨o', e, v⟩ := C52_one (cfg := cfg) (L := L) (P := P) hv
  rw [e] at h1
  cases h1
  refine ⟨t, ?_, h⟩
  rw [C01_cadd_ok o o t h2, v]
  norm_num

theorem logb_pow_le {x : ℚ} (hx : 1 ≤ x) {w : ℝ} (hw : 0 < w) (n k D : Nat)
    (h : (2 : ℝ) ^ D ≤ (x : ℝ) ^ 2 ^ n * w ^ k) :
    (D : ℝ) ≤ 2 ^ n * Real.logb 2 x + k * Real.logb 2 w := by
  have hx : (0 : ℝ) < x := by exact_mod_cast (by linarith : (0 : ℚ) < x)
  have := Real.logb_le_logb_of_le (by norm_num : (1 : ℝ) < 2) (by positivity) h
  rw [Real.logb_mul (by positivity) (by positivity), Real.logb_pow, Real.logb_pow, Real.logb_pow,
    Real.logb_self_eq_one (by norm_num)] at this
  push_cast at this
  linarith

theorem logb_pow_lt {x : ℚ} (hx : 1 ≤ x) {w : ℝ} (hw : 0 < w) (n k D : Nat)
    (h : (x : ℝ) ^ 2 ^ n * w ^ k < (2 : ℝ) ^ D) :
    2 ^ n * Real.logb 2 x + k * Real.logb 2 w < D := by
  have hx : (0 : ℝ) < x := by exact_mod_cast (by linarith : (0 : ℚ) < x)
  have := Real.logb_lt_logb (by norm_num : (1 : ℝ) < 2) (by positivity) h
  rw [Real.logb_mul (by positivity) (by positivity), Real.logb_pow, Real.logb_pow, Real.logb_pow,
    Real.logb_self_eq_one (by norm_num)] at this
  push_cast at this
  linarith

/-- **C127** rounding down: `n` rounds give digits that never exceed the binary logarithm, and that fall
short of it by less than one last digit and twice the logarithm of `1 / (1 - 10^-P)`, however many rounds
there are. -/
theorem C127_floor {cfg : Cfg} (hv : Valid cfg L P) (hP : 1 ≤ P) {n D : Nat} {x : FP L P}
    (h1 : 1 ≤ value x) (h2 : value x < 2) (h : binLog cfg .floor n x = .ok D) :
    (D : ℝ) / 2 ^ n ≤ Real.logb 2 (value x : ℚ) ∧
    Real.logb 2 (value x : ℚ) < ((D : ℝ) + 1) / 2 ^ n - 2 * Real.logb 2 (1 - 1 / 10 ^ P) := by
  obtain ⟨t, ht, h⟩ := binLog_loop hv h
  obtain ⟨a, b⟩ := logLoop_floor hv ht n 0 D x h1 h2 h
  rw [pow_zero, one_mul] at a b
  have hn : (0 : ℝ) < 2 ^ n := by positivity
  have hu : (1 : ℝ) / 10 ^ P < 1 := by
    rw [div_lt_one (by positivity)]
    exact one_lt_pow₀ (by norm_num) (by omega)
  have hu0 : (0 : ℝ) < 1 / 10 ^ P := by positivity
  constructor
  · have a : (2 : ℝ) ^ D ≤ ((value x : ℚ) : ℝ) ^ 2 ^ n * 1 ^ 0 := by
      rw [pow_zero, mul_one]; exact_mod_cast a
    have := logb_pow_le h1 one_pos n 0 D a
    rw [div_le_iff₀ hn]
    push_cast at this
    linarith
  · have b : ((value x : ℚ) : ℝ) ^ 2 ^ n * ((1 - 1 / 10 ^ P) ^ 2) ^ (2 ^ n - 1) < (2 : ℝ) ^ (D + 1) := by
      have := (Rat.cast_lt (K := ℝ)).2 b
      push_cast at this
      exact this
    have := logb_pow_lt h1 (by have : (0 : ℝ) < 1 - 1 / 10 ^ P := by linarith
                               positivity) n _ _ b
    rw [Real.logb_pow] at this
    have hl : Real.logb 2 (1 - 1 / 10 ^ P) ≤ 0 :=
      Real.logb_nonpos (by norm_num) (by linarith) (by linarith)
    have hk : ((2 ^ n - 1 : Nat) : ℝ) ≤ 2 ^ n := by
      exact_mod_cast Nat.sub_le (2 ^ n) 1
    have e : ((D : ℝ) + 1) / 2 ^ n - 2 * Real.logb 2 (1 - 1 / 10 ^ P) =
      ((D : ℝ) + 1 - 2 ^ n * (2 * Real.logb 2 (1 - 1 / 10 ^ P))) / 2 ^ n := by
      field_simp
    rw [e, lt_div_iff₀ hn]
    push_cast at this
    nlinarith

/-- 1.5 in nine digits: ten binary digits of its logarithm 0.58496… make 599; a single decimal digit is
too coarse for that, and the digits stay on their side. -/
example : binLog debugCfg .floor 10 (⟨1500000000⟩ : FP .i64 9) = .ok 599 ∧
    binLog debugCfg .floor 10 (⟨15⟩ : FP .i64 1) = .ok 569 := by decide +kernel
example := C127_floor (cfg := debugCfg) (by decide) (by decide) (n := 10) (D := 599)
  (x := (⟨1500000000⟩ : FP .i64 9)) (by rw [value_eq _ 1500000000 (by decide)]; norm_num)
  (by rw [value_eq _ 1500000000 (by decide)]; norm_num) (by decide +kernel)

/-- **C127** rounding up: one more than the digits is never below the binary logarithm, and the digits
exceed it by at most twice the logarithm of `1 + 10^-P`. -/
theorem C127_ceil {cfg : Cfg} (hv : Valid cfg L P) {n D : Nat} {x : FP L P}
    (h1 : 1 ≤ value x) (h2 : value x ≤ 2) (h : binLog cfg .ceil n x = .ok D) :
    Real.logb 2 (value x : ℚ) ≤ ((D : ℝ) + 1) / 2 ^ n ∧
    (D : ℝ) / 2 ^ n ≤ Real.logb 2 (value x : ℚ) + 2 * Real.logb 2 (1 + 1 / 10 ^ P) := by
  obtain ⟨t, ht, h⟩ := binLog_loop hv h
  obtain ⟨a, b⟩ := logLoop_ceil hv ht n 0 D x h1 h2 h
  rw [pow_zero, one_mul] at a b
  have hn : (0 : ℝ) < 2 ^ n := by positivity
  have hx : (0 : ℝ) < (value x : ℚ) := by exact_mod_cast (by linarith : (0 : ℚ) < value x)
  have hu0 : (0 : ℝ) < 1 / 10 ^ P := by positivity
  constructor
  · have a : ((value x : ℚ) : ℝ) ^ 2 ^ n ≤ (2 : ℝ) ^ (D + 1) := by exact_mod_cast a
    have := Real.logb_le_logb_of_le (by norm_num : (1 : ℝ) < 2) (by positivity) a
    rw [Real.logb_pow, Real.logb_pow, Real.logb_self_eq_one (by norm_num)] at this
    rw [le_div_iff₀ hn]
    push_cast at this
    linarith
  · have b : (2 : ℝ) ^ D ≤ ((value x : ℚ) : ℝ) ^ 2 ^ n * ((1 + 1 / 10 ^ P) ^ 2) ^ (2 ^ n - 1) := by
      have := (Rat.cast_le (K := ℝ)).2 b
      push_cast at this
      exact this
    have := logb_pow_le h1 (by positivity) n _ _ b
    rw [Real.logb_pow] at this
    have hl : 0 ≤ Real.logb 2 (1 + 1 / 10 ^ P : ℝ) :=
      Real.logb_nonneg (by norm_num) (by linarith)
    have hk : ((2 ^ n - 1 : Nat) : ℝ) ≤ 2 ^ n := by
      exact_mod_cast Nat.sub_le (2 ^ n) 1
    rw [div_le_iff₀ hn]
    push_cast at this
    nlinarith

/-- Up: one decimal digit gives 682 where 599 is right. Of 2 itself, all digits are ones. -/
example : binLog debugCfg .ceil 10 (⟨15⟩ : FP .i64 1) = .ok 682 ∧
    binLog debugCfg .ceil 10 (⟨2000000000⟩ : FP .i64 9) = .ok 1023 := by decide +kernel
example := C127_ceil (cfg := debugCfg) (by decide) (n := 10) (D := 682) (x := (⟨15⟩ : FP .i64 1))
  (by rw [value_eq _ 15 (by decide)]; norm_num) (by rw [value_eq _ 15 (by decide)]; norm_num)
  (by decide +kernel)

/-- **C127** rounding to the nearest: the digits are off on either side, by at most twice the logarithm
of `1 ± 10^-P/2` and one last digit. -/
theorem C127_nearest {cfg : Cfg} (hv : Valid cfg L P) {n D : Nat} {x : FP L P}
    (h1 : 1 ≤ value x) (h2 : value x ≤ 2) (h : binLog cfg .nearest n x = .ok D) :
    Real.logb 2 (value x : ℚ) ≤ ((D : ℝ) + 1) / 2 ^ n - 2 * Real.logb 2 (1 - 1 / 2 / 10 ^ P) ∧
    (D : ℝ) / 2 ^ n ≤ Real.logb 2 (value x : ℚ) + 2 * Real.logb 2 (1 + 1 / 2 / 10 ^ P) := by
  obtain ⟨t, ht, h⟩ := binLog_loop hv h
  obtain ⟨a, b⟩ := logLoop_nearest hv ht n 0 D x h1 h2 h
  rw [pow_zero, one_mul] at a b
  have hn : (0 : ℝ) < 2 ^ n := by positivity
  have hx : (0 : ℝ) < (value x : ℚ) := by exact_mod_cast (by linarith : (0 : ℚ) < value x)
  have hu0 : (0 : ℝ) < 1 / 2 / 10 ^ P := by positivity
  have hu : (1 : ℝ) / 2 / 10 ^ P < 1 := by
    rw [div_lt_one (by positivity)]
    exact lt_of_lt_of_le (by norm_num) (one_le_pow₀ (by norm_num : (1 : ℝ) ≤ 10))
  have hk : ((2 ^ n - 1 : Nat) : ℝ) ≤ 2 ^ n := by
    exact_mod_cast Nat.sub_le (2 ^ n) 1
  constructor
  · have a : ((value x : ℚ) : ℝ) ^ 2 ^ n * ((1 - 1 / 2 / 10 ^ P) ^ 2) ^ (2 ^ n - 1) ≤
        (2 : ℝ) ^ (D + 1) := by
      have := (Rat.cast_le (K := ℝ)).2 a
      push_cast at this
      exact this
    have hw : (0 : ℝ) < 1 - 1 / 2 / 10 ^ P := by linarith
    have := Real.logb_le_logb_of_le (by norm_num : (1 : ℝ) < 2) (by positivity) a
    rw [Real.logb_mul (by positivity) (by positivity), Real.logb_pow, Real.logb_pow, Real.logb_pow,
      Real.logb_pow, Real.logb_self_eq_one (by norm_num)] at this
    have hl : Real.logb 2 (1 - 1 / 2 / 10 ^ P) ≤ 0 :=
      Real.logb_nonpos (by norm_num) hw.le (by linarith)
    have e : ((D : ℝ) + 1) / 2 ^ n - 2 * Real.logb 2 (1 - 1 / 2 / 10 ^ P) =
      ((D : ℝ) + 1 - 2 ^ n * (2 * Real.logb 2 (1 - 1 / 2 / 10 ^ P))) / 2 ^ n := by
      field_simp
    rw [e, le_div_iff₀ hn]
    push_cast at this
    nlinarith
  · have b : (2 : ℝ) ^ D ≤
        ((value x : ℚ) : ℝ) ^ 2 ^ n * ((1 + 1 / 2 / 10 ^ P) ^ 2) ^ (2 ^ n - 1) := by
      have := (Rat.cast_le (K := ℝ)).2 b
      push_cast at this
      exact this
    have := logb_pow_le h1 (by positivity) n _ _ b
    rw [Real.logb_pow] at this
    have hl : 0 ≤ Real.logb 2 (1 + 1 / 2 / 10 ^ P : ℝ) :=
      Real.logb_nonneg (by norm_num) (by linarith)
    rw [div_le_iff₀ hn]
    push_cast at this
    nlinarith

-- the digits of 1.5 are right with nine decimal digits, and too large with one
example : binLog debugCfg .nearest 10 (⟨1500000000⟩ : FP .i64 9) = .ok 599 ∧
    binLog debugCfg .nearest 10 (⟨15⟩ : FP .i64 1) = .ok 640 := by decide +kernel
example := C127_nearest (cfg := debugCfg) (by decide) (n := 10) (D := 599)
  (x := (⟨1500000000⟩ : FP .i64 9)) (by rw [value_eq _ 1500000000 (by decide)]; norm_num)
  (by rw [value_eq _ 1500000000 (by decide)]; norm_num) (by decide +kernel)

theorem logLoop_returns {cfg : Cfg} (hv : Valid cfg L P) {mode : RoundMode}
    (h4 : 4 ≤ maxValue L P) {two : FP L P} (h2 : value two = 2) (n : Nat) :
    ∀ (d : Nat) (y : FP L P), 1 ≤ value y → value y ≤ 2 → ∃ D, logLoop cfg mode two n d y = .ok D := by
  have hne : ¬ (L = .i128 ∧ P = 38) := by
    rintro ⟨rfl, rfl⟩
    unfold maxValue at h4
    norm_num [rawMax, Layout.bits] at h4
  have up : ∀ (k : Int) (q : ℚ), q ≤ k → roundTo P mode q ≤ k := by
    intro k q hq
    have := roundTo_mono P mode hq
    rwa [roundTo_int] at this
  induction n with
  | zero => exact fun d y _ _ => ⟨d, rfl⟩
  | succ n ih =>
    intro d y y1 y2
    have hsq : 1 ≤ value y * value y := by nlinarith
    have f1 : 1 ≤ roundTo P mode (value y * value y) := by
      have := roundTo_mono P mode hsq
      rwa [roundTo_one] at this
    have f2 : roundTo P mode (value y * value y) ≤ 4 := by
      exact_mod_cast up 4 _ (by push_cast; nlinarith)
    have fr : Representable L P (roundTo P mode (value y * value y)) := by
      unfold roundTo at f1 f2 ⊢
      exact representable_of_abs_le (by rw [abs_of_nonneg (by linarith)]; linarith)
    obtain ⟨p, p1, p2⟩ := (C07_rmul_partial hv y y mode (fun _ => hne)).1 fr
    unfold logLoop
    rw [p1, ok_bind]
    split
    · rename_i hc
      rw [C54_cmp, compare_lt_iff_lt, h2] at hc
      exact ih _ p (by rw [p2]; exact f1) hc.le
    · rename_i hc
      rw [C54_cmp, compare_lt_iff_lt, h2, not_lt] at hc
      have g1 : 1 ≤ roundTo P mode (value p / 2) := by
        have := roundTo_mono P mode (by linarith : 1 ≤ value p / 2)
        rwa [roundTo_one] at this
      have g2 : roundTo P mode (value p / 2) ≤ 2 := by
        exact_mod_cast up 2 _ (by push_cast; rw [p2]; linarith)
      have gr : Representable L P (roundTo P mode (value p / 2)) := by
        unfold roundTo at g1 g2 ⊢
        exact representable_of_abs_le (by rw [abs_of_nonneg (by linarith)]; linarith)
      have hd := C12_rdivInt_small_partial cfg p (BitVec.ofInt _ 2) mode
        (by rw [two_toInt]; omega) (by rw [two_toInt]; omega)
        (by rw [two_toInt]; cases L <;> norm_num [rawMax, Layout.bits])
      rw [two_toInt] at hd
      obtain ⟨q, q1, q2⟩ := hd.1 (by push_cast; exact gr)
      rw [q1, ok_bind]
      push_cast at q2
      exact ih _ q (by rw [q2]; exact g1) (by rw [q2]; exact g2)

/-- **C127** the digits come: from 1 to 2, in a type that holds 4, no round overflows. -/
theorem C127_returns {cfg : Cfg} (hv : Valid cfg L P) {mode : RoundMode}
    (h4 : 4 ≤ maxValue L P) (n : Nat) (x : FP L P) (h1 : 1 ≤ value x) (h2 : value x ≤ 2) :
    ∃ D, binLog cfg mode n x = .ok D := by
  obtain ⟨o, e, v⟩ := C52_one (ε := ArithErr) (cfg := cfg) (L := L) (P := P) hv
  have hr : Representable L P (value o + value o) := by
    have hz : value o + value o = ((2 * 10 ^ P : Int) : ℚ) / 10 ^ P := by
      rw [v]; push_cast; rw [mul_div_assoc, div_self (ten_pow_ne P)]; norm_num
    have hz2 : ((2 * 10 ^ P : Int) : ℚ) / 10 ^ P = 2 := by rw [← hz, v]; norm_num
    rw [hz]
    exact representable_of_abs_le (by rw [hz2, abs_of_pos (by norm_num)]; linarith)
  obtain ⟨t, t1, t2⟩ := (C01_cadd_exact o o).1 hr
  unfold binLog
  rw [e, ok_bind, t1, ok_bind]
  exact logLoop_returns hv h4 (by rw [t2, v]; norm_num) n 0 x h1 h2

example := C127_returns (cfg := debugCfg) (mode := .nearest) (by decide)
  (by unfold maxValue; norm_num [rawMax, Layout.bits]) 60 (⟨1500000000⟩ : FP .i64 9)
  (by rw [value_eq _ 1500000000 (by decide)]; norm_num)
  (by rw [value_eq _ 1500000000 (by decide)]; norm_num)
/-- In a type that does not hold 4, the first square overflows. -/
example : binLog debugCfg .floor 10 (⟨19000⟩ : FP .i16 4) = .err .overflow := by decide +kernel

end Fixnum
