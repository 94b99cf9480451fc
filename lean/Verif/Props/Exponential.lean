import Verif.Props.Reciprocal
import Verif.Props.Power
import Verif.Props.Balances
import Mathlib.Analysis.Complex.Exponential

/-! # Property C122: the exponential series

A client sums `1 + x + x^2/2! + ... + x^n/n!` with `rmul`, `rdiv` by an integer and `cadd`.  The
result is compared with the real exponential function. -/

namespace Fixnum

open Res Spec

variable {L : Layout} {P : Nat} {ε : Type}

/-- The loop of the client: `t` is the `k`-th term, `s` the sum of the terms up to it. -/
def expLoop (cfg : Cfg) (mode : RoundMode) (x : FP L P) :
    Nat → Nat → FP L P → FP L P → Res ArithErr (FP L P)
  | 0, _, _, s => .ok s
  | n + 1, k, t, s => do
    let t ← FP.rmul cfg t x mode
    let t ← FP.rdivInt cfg t (BitVec.ofNat L.bits (k + 1)) mode
    let s ← FP.cadd s t
    expLoop cfg mode x n (k + 1) t s

/-- The client: the series up to the `n`-th power. -/
def expSeries (cfg : Cfg) (mode : RoundMode) (n : Nat) (x : FP L P) : Res ArithErr (FP L P) := do
  let one ← FP.one cfg
  expLoop cfg mode x n 0 one one

/-- The exact partial sum. -/
def Spec.expSum (x : ℚ) (n : Nat) : ℚ := ∑ i ∈ Finset.range (n + 1), x ^ i / i.factorial

theorem expSum_succ (x : ℚ) (n : Nat) :
    expSum x (n + 1) = expSum x n + x ^ (n + 1) / (n + 1).factorial := by
  unfold expSum
  rw [Finset.sum_range_succ]

theorem expSum_cast (x : ℚ) (n : Nat) :
    ((expSum x n : ℚ) : ℝ) = ∑ m ∈ Finset.range (n + 1), (x : ℝ) ^ m / m.factorial := by
  unfold expSum
  rw [← Rat.coe_castHom, map_sum]
  refine Finset.sum_congr rfl fun i _ => ?_
  rw [Rat.coe_castHom]
  push_cast
  rfl

/-- What the series leaves out. -/
theorem exp_remainder {x : ℚ} (hx : |x| ≤ 1) (n : Nat) :
    |Real.exp (x : ℚ) - ((expSum x n : ℚ) : ℝ)| ≤ (n + 2) / ((n + 1).factorial * (n + 1)) := by
  have hx' : |(x : ℝ)| ≤ 1 := by exact_mod_cast hx
  have hb := Real.exp_bound hx' (n := n + 1) (by omega)
  have h1 : |(x : ℝ)| ^ (n + 1) ≤ 1 := pow_le_one₀ (abs_nonneg _) hx'
  rw [expSum_cast]
  refine hb.trans ((mul_le_of_le_one_left (by positivity) h1).trans (le_of_eq ?_))
  push_cast
  congr 1
  ring

theorem ofNat_toInt {k : Nat} (h : (k : Int) ≤ rawMax L) : (BitVec.ofNat L.bits k).toInt = k := by
  have h0 : (0 : Int) ≤ k := by omega
  have hf : Fits L.bits (k : Int) := (fits_iff L _).2 ⟨by
    have := half_pos L; rw [rawMin_half]; omega, h⟩
  have := toInt_ofInt_of_fits (bits_pos L) hf
  rwa [BitVec.ofInt_natCast] at this

/-- One step of the loop. -/
theorem expLoop_succ {cfg : Cfg} {mode : RoundMode} {x t s r : FP L P} {n k : Nat}
    (h : expLoop cfg mode x (n + 1) k t s = .ok r) :
    ∃ p q s', FP.rmul cfg t x mode = .ok p ∧
      FP.rdivInt cfg p (BitVec.ofNat L.bits (k + 1)) mode = .ok q ∧
      value s' = value s + value q ∧ expLoop cfg mode x n (k + 1) q s' = .ok r := by
  unfold expLoop at h
  obtain ⟨p, h1, h⟩ := bind_ok_of h
  obtain ⟨q, h2, h⟩ := bind_ok_of h
  obtain ⟨s', h3, h⟩ := bind_ok_of h
  exact ⟨p, q, s', h1, h2, C01_cadd_ok _ _ _ h3, h⟩

theorem factorial_pos (k : Nat) : (0 : ℚ) < k.factorial := by
  exact_mod_cast k.factorial_pos

/-- A term from the one before. -/
theorem term_succ (x : ℚ) (k : Nat) :
    x ^ (k + 1) / (k + 1).factorial = x ^ k / k.factorial * x / (k + 1) := by
  have := factorial_pos k
  rw [Nat.factorial_succ]
  push_cast
  field_simp
  ring

theorem rdivInt_positive {cfg : Cfg} {a r : FP L P} {mode : RoundMode} {k : Nat}
    (hk : ((k + 1 : Nat) : Int) ≤ rawMax L) (hm : mode ≠ .nearest)
    (h : FP.rdivInt cfg a (BitVec.ofNat L.bits (k + 1)) mode = .ok r) :
    value r = roundTo P mode (value a / (k + 1)) := by
  have e := ofNat_toInt hk
  have := ((C12_rdivInt_partial cfg a _ mode (by rw [e]; omega) (by rw [e]; omega)
    (fun k => absurd k hm)).ok_iff r).1 h
  rw [this, e]
  push_cast
  rfl

theorem expLoop_directed {cfg : Cfg} (hv : Valid cfg L P) {mode : RoundMode} {x : FP L P}
    (hx : 0 ≤ value x) : ∀ (n k : Nat) (t s r : FP L P), ((k + n : Nat) : Int) ≤ rawMax L →
    0 ≤ value t → expLoop cfg mode x n k t s = .ok r →
    (mode = .floor → value t ≤ value x ^ k / k.factorial → value s ≤ expSum (value x) k →
      value r ≤ expSum (value x) (k + n)) ∧
    (mode = .ceil → value x ^ k / k.factorial ≤ value t → expSum (value x) k ≤ value s →
      expSum (value x) (k + n) ≤ value r) := by
  intro n
  induction n with
  | zero =>
    intro k t s r _ _ h
    unfold expLoop at h
    cases h
    exact ⟨fun _ _ h => h, fun _ _ h => h⟩
  | succ n ih =>
    intro k t s r hk ht h
    obtain ⟨p, q, s', h1, h2, h3, h4⟩ := expLoop_succ h
    have hk1 : ((k + 1 : Nat) : Int) ≤ rawMax L := by push_cast at hk ⊢; omega
    have hk0 : (0 : ℚ) < k + 1 := by positivity
    have ek : k + 1 + n = k + (n + 1) := by omega
    constructor
    · rintro rfl h5 h6
      have e1 := rmul_checked_value hv (.inl (by simp)) h1
      have e2 := rdivInt_positive hk1 (by simp) h2
      have p0 : 0 ≤ value p := by rw [e1]; exact roundTo_nonneg _ _ (mul_nonneg ht hx)
      have q0 : 0 ≤ value q := by rw [e2]; exact roundTo_nonneg _ _ (by positivity)
      have hq : value q ≤ value x ^ (k + 1) / (k + 1).factorial := by
        rw [term_succ, e2]
        refine (roundTo_floor_spec P _).1.trans ?_
        rw [div_le_div_iff_of_pos_right hk0, e1]
        exact (roundTo_floor_spec P _).1.trans (mul_le_mul_of_nonneg_right h5 hx)
      rw [← ek]
      refine (ih _ _ _ _ (by rw [ek]; exact hk) q0 h4).1 rfl hq ?_
      rw [h3, expSum_succ]
      exact add_le_add h6 hq
    · rintro rfl h5 h6
      have e1 := rmul_checked_value hv (.inl (by simp)) h1
      have e2 := rdivInt_positive hk1 (by simp) h2
      have p0 : 0 ≤ value p := by rw [e1]; exact roundTo_nonneg _ _ (mul_nonneg ht hx)
      have q0 : 0 ≤ value q := by rw [e2]; exact roundTo_nonneg _ _ (by positivity)
      have hq : value x ^ (k + 1) / (k + 1).factorial ≤ value q := by
        rw [term_succ, e2]
        refine le_trans ?_ (roundTo_ceil_spec P _).1
        rw [div_le_div_iff_of_pos_right hk0, e1]
        exact (mul_le_mul_of_nonneg_right h5 hx).trans (roundTo_ceil_spec P _).1
      rw [← ek]
      refine (ih _ _ _ _ (by rw [ek]; exact hk) q0 h4).2 rfl hq ?_
      rw [h3, expSum_succ]
      exact add_le_add h6 hq

/-- C122: for `x` that is not negative the series with `Floor` is a lower bound of the exponential
function, and with `Ceil` an upper bound of the partial sum. -/
theorem C122_directed {cfg : Cfg} (hv : Valid cfg L P) (mode : RoundMode) (n : Nat) (x r : FP L P)
    (hn : (n : Int) ≤ rawMax L) (hx : 0 ≤ value x) (h : expSeries cfg mode n x = .ok r) :
    (mode = .floor → ((value r : ℚ) : ℝ) ≤ Real.exp (value x : ℚ)) ∧
    (mode = .ceil → expSum (value x) n ≤ value r) := by
  unfold expSeries at h
  obtain ⟨o, h1, h⟩ := bind_ok_of h
  obtain ⟨o', e1, e2⟩ := C52_one (ε := ArithErr) hv
  rw [e1] at h1; cases h1
  have s0 : expSum (value x) 0 = 1 := by simp [expSum]
  have key := expLoop_directed hv hx n 0 o o r (by simpa using hn) (by rw [e2]; norm_num) h
  rw [s0, e2, zero_add, pow_zero, Nat.factorial_zero, Nat.cast_one, div_one] at key
  refine ⟨fun hm => ?_, fun hm => key.2 hm le_rfl le_rfl⟩
  have h2 := key.1 hm le_rfl le_rfl
  have h3 : ((expSum (value x) n : ℚ) : ℝ) ≤ Real.exp (value x : ℚ) := by
    rw [expSum_cast]
    exact Real.sum_le_exp_of_nonneg (by exact_mod_cast hx) (n + 1)
  refine le_trans ?_ h3
  exact_mod_cast h2

example := C122_directed (cfg := debugCfg) (by decide) .floor 12 (⟨2500000000⟩ : FP .i64 9)
  ⟨12182464909⟩ (by decide) (by rw [value_eq _ 2500000000 (by decide)]; norm_num) (by decide +kernel)

theorem expLoop_error {cfg : Cfg} (hv : Valid cfg L P) {mode : RoundMode} {x : FP L P}
    (hx : |value x| ≤ 1) : ∀ (n k : Nat) (t s r : FP L P) (e : ℚ), ((k + n : Nat) : Int) ≤ rawMax L →
    |value t - value x ^ k / k.factorial| ≤ (if k = 0 then 0 else 3) / 10 ^ P →
    |value s - expSum (value x) k| ≤ e →
    expLoop cfg mode x n k t s = .ok r →
    |value r - expSum (value x) (k + n)| ≤ e + 3 * n / 10 ^ P := by
  intro n
  induction n with
  | zero =>
    intro k t s r e _ _ h h'
    unfold expLoop at h'
    cases h'
    simpa using h
  | succ n ih =>
    intro k t s r e hk ht hs h
    obtain ⟨p, q, s', h1, h2, h3, h4⟩ := expLoop_succ h
    have hk1 : ((k + 1 : Nat) : Int) ≤ rawMax L := by push_cast at hk ⊢; omega
    have hk0 : (0 : ℚ) < k + 1 := by positivity
    have ek : k + 1 + n = k + (n + 1) := by omega
    have hu : (0 : ℚ) < 1 / 10 ^ P := by positivity
    have b1 := (C116_below_one_unit (ε := Unit) hv t x p 0 mode).1 h1
    have b2 := (C116_below_one_unit (ε := Unit) hv p x q (BitVec.ofNat L.bits (k + 1)) mode).2.2.1 h2
    rw [ofNat_toInt hk1] at b2
    push_cast at b2
    -- the error of the new term
    have hq : |value q - value x ^ (k + 1) / (k + 1).factorial| ≤ 3 / 10 ^ P := by
      rw [term_succ]
      set T := value x ^ k / (k.factorial : ℚ)
      have a1 : |(value t - T) * value x| ≤ |value t - T| := by
        rw [abs_mul]
        exact mul_le_of_le_one_right (abs_nonneg _) hx
      have a2 : |value p - T * value x| ≤ (if k = 0 then 0 else 3) / 10 ^ P + 1 / 10 ^ P := by
        have : value p - T * value x = (value p - value t * value x) + (value t - T) * value x := by
          ring
        rw [this]
        exact (abs_add_le _ _).trans (by linarith)
      have a3 : |(value p - T * value x) / (k + 1)| ≤ 2 / 10 ^ P := by
        rw [abs_div, abs_of_pos hk0, div_le_iff₀ hk0]
        refine a2.trans ?_
        have e2 : (2 : ℚ) / 10 ^ P * (k + 1) = (2 * k + 2) * (1 / 10 ^ P) := by ring
        split
        · rename_i hz
          rw [e2, hz]
          have : (0 : ℚ) / 10 ^ P = 0 := by simp
          rw [this]; push_cast; linarith
        · rename_i hz
          have hk2 : (1 : ℚ) ≤ k := by exact_mod_cast Nat.one_le_iff_ne_zero.2 hz
          have e3 : (3 : ℚ) / 10 ^ P + 1 / 10 ^ P = 4 * (1 / 10 ^ P) := by ring
          rw [e2, e3]
          exact mul_le_mul_of_nonneg_right (by linarith) hu.le
      have : value q - T * value x / (k + 1) =
          (value q - value p / (k + 1)) + (value p - T * value x) / (k + 1) := by ring
      rw [this]
      refine (abs_add_le _ _).trans ?_
      have e4 : (3 : ℚ) / 10 ^ P = 1 / 10 ^ P + 2 / 10 ^ P := by ring
      rw [e4]
      linarith
    have hs' : |value s' - expSum (value x) (k + 1)| ≤ e + 3 / 10 ^ P := by
      rw [h3, expSum_succ]
      have : value s + value q - (expSum (value x) k + value x ^ (k + 1) / (k + 1).factorial) =
        (value s - expSum (value x) k) + (value q - value x ^ (k + 1) / (k + 1).factorial) := by ring
      rw [this]
      exact (abs_add_le _ _).trans (by linarith)
    rw [← ek]
    refine (ih (k + 1) q s' r _ (by rw [ek]; exact hk) (by rw [if_neg (by omega)]; exact hq) hs'
      h4).trans (le_of_eq ?_)
    push_cast
    ring

/-- C122: for `x` from -1 to 1, in every mode and build, the series is off the partial sum by at most
`3 n` units of the last place, and off the exponential function by that and the usual remainder. -/
theorem C122_error {cfg : Cfg} (hv : Valid cfg L P) (mode : RoundMode) (n : Nat) (x r : FP L P)
    (hn : (n : Int) ≤ rawMax L) (hx : |value x| ≤ 1) (h : expSeries cfg mode n x = .ok r) :
    |value r - expSum (value x) n| ≤ 3 * n / 10 ^ P ∧
    |((value r : ℚ) : ℝ) - Real.exp (value x : ℚ)| ≤
      3 * n / 10 ^ P + (n + 2) / ((n + 1).factorial * (n + 1)) := by
  have hmain : |value r - expSum (value x) n| ≤ 3 * n / 10 ^ P := by
    unfold expSeries at h
    obtain ⟨o, h1, h⟩ := bind_ok_of h
    obtain ⟨o', e1, e2⟩ := C52_one (ε := ArithErr) hv
    rw [e1] at h1; cases h1
    have := expLoop_error hv hx n 0 o o r 0 (by simpa using hn) (by rw [e2]; simp)
      (by rw [e2]; simp [expSum]) h
    simpa using this
  refine ⟨hmain, ?_⟩
  have h2 : |((value r : ℚ) : ℝ) - ((expSum (value x) n : ℚ) : ℝ)| ≤ 3 * n / 10 ^ P := by
    have := (Rat.cast_le (K := ℝ)).2 hmain
    push_cast at this
    exact this
  have h4 : |((value r : ℚ) : ℝ) - Real.exp (value x : ℚ)| ≤
      |((value r : ℚ) : ℝ) - ((expSum (value x) n : ℚ) : ℝ)| +
      |Real.exp (value x : ℚ) - ((expSum (value x) n : ℚ) : ℝ)| := by
    rw [abs_sub_comm (Real.exp _)]
    exact abs_sub_le _ _ _
  exact h4.trans (add_le_add h2 (exp_remainder hx n))

example := C122_error (cfg := releaseCfg) (by decide) .nearest 12 (⟨-1000000000⟩ : FP .i64 9) ⟨367879442⟩
  (by decide) (by decide +kernel) (by decide +kernel)

example : (12 : Int) ≤ rawMax .i64 ∧ |value (⟨-1000000000⟩ : FP .i64 9)| ≤ 1 ∧
    expSeries releaseCfg .nearest 12 (⟨-1000000000⟩ : FP .i64 9) = .ok ⟨367879442⟩ := by
  rw [value_eq _ (-1000000000) (by decide)]
  exact ⟨by decide, by norm_num, by decide +kernel⟩

/-- C122: for `x` from 0 to 1 the two directed series enclose the exponential function, up to the
usual remainder. -/
theorem C122_enclosure {cfg : Cfg} (hv : Valid cfg L P) (n : Nat) (x lo hi : FP L P)
    (hn : (n : Int) ≤ rawMax L) (hx : 0 ≤ value x) (hx1 : value x ≤ 1)
    (hlo : expSeries cfg .floor n x = .ok lo) (hhi : expSeries cfg .ceil n x = .ok hi) :
    ((value lo : ℚ) : ℝ) ≤ Real.exp (value x : ℚ) ∧
    Real.exp (value x : ℚ) ≤ ((value hi : ℚ) : ℝ) + (n + 2) / ((n + 1).factorial * (n + 1)) ∧
    value hi - value lo ≤ 6 * n / 10 ^ P := by
  have ha : |value x| ≤ 1 := abs_le.2 ⟨by linarith, hx1⟩
  have h1 := (C122_directed hv _ n x hi hn hx hhi).2 rfl
  have h2 : ((expSum (value x) n : ℚ) : ℝ) ≤ ((value hi : ℚ) : ℝ) := by exact_mod_cast h1
  have hb := exp_remainder ha n
  have e1 := (C122_error hv _ n x lo hn ha hlo).1
  have e2 := (C122_error hv _ n x hi hn ha hhi).1
  refine ⟨(C122_directed hv _ n x lo hn hx hlo).1 rfl, ?_, ?_⟩
  · rw [abs_le] at hb; linarith [hb.2]
  · rw [abs_le] at e1 e2
    have : (6 : ℚ) * n / 10 ^ P = 3 * n / 10 ^ P + 3 * n / 10 ^ P := by ring
    linarith [e1.1, e2.2]

/-- `e` with 9 digits by 12 terms. -/
example := C122_enclosure (cfg := debugCfg) (by decide) 12 (⟨1000000000⟩ : FP .i64 9) ⟨2718281823⟩
  ⟨2718281833⟩ (by decide) (by rw [value_eq _ 1000000000 (by decide)]; norm_num)
  (by rw [value_eq _ 1000000000 (by decide)]; norm_num) (by decide +kernel) (by decide +kernel)

/-- C122: for `x` from 0 to 1 the series is always computed, if the type goes up to `n + 1`: no
overflow and no panic. -/
theorem C122_returns {cfg : Cfg} (hv : Valid cfg L P) (mode : RoundMode) (n : Nat) (x : FP L P)
    (hn : 2 * (n : Int) ≤ rawMax L) (hmax : (n : ℚ) + 1 ≤ maxValue L P)
    (hx : 0 ≤ value x) (hx1 : value x ≤ 1) : ∃ r, expSeries cfg mode n x = .ok r := by
  obtain ⟨o, ho, hov⟩ := C52_one (ε := ArithErr) hv
  have key : ∀ (m k : Nat) (t s : FP L P), k + m = n → 0 ≤ value t → value t ≤ 1 → 0 ≤ value s →
      value s ≤ k + 1 → ∃ r, expLoop cfg mode x m k t s = .ok r := by
    intro m
    induction m with
    | zero => exact fun k t s _ _ _ _ _ => ⟨s, rfl⟩
    | succ m ih =>
      intro k t s hk t0 t1 s0 s1
      have hk0 : (0 : ℚ) < k + 1 := by positivity
      have hm : mode = .nearest → ¬ (L = .i128 ∧ P = 38) := by
        rintro - ⟨hL, hP⟩
        rw [hL, hP, maxValue, show rawMax .i128 = 170141183460469231731687303715884105727 by decide]
          at hmax
        have : (1 : ℚ) ≤ n := by exact_mod_cast (by omega : 1 ≤ n)
        norm_num at hmax
        linarith
      have hk1 : 2 * ((k + 1 : Nat) : Int) ≤ rawMax L := by push_cast; omega
      obtain ⟨p, h1, e1⟩ := (C07_rmul_partial hv t x mode hm).1 (by
        refine representable_within mode FP.zero o ?_ ?_
        · rw [C52_zero]; exact mul_nonneg t0 hx
        · rw [hov]; exact mul_le_one₀ t1 hx hx1)
      have p0 : 0 ≤ value p := by rw [e1]; exact roundTo_nonneg _ _ (mul_nonneg t0 hx)
      have p1 : value p ≤ 1 := by rw [e1]; exact roundTo_le_one P mode (mul_le_one₀ t1 hx hx1)
      have eN := ofNat_toInt (L := L) (k := k + 1) (by omega)
      have hd := C12_rdivInt_small_partial cfg p (BitVec.ofNat L.bits (k + 1)) mode
        (by rw [eN]; omega) (by rw [eN]; omega) (by rw [eN, abs_of_nonneg (by omega)]; exact hk1)
      rw [eN] at hd
      push_cast at hd
      have d0 : 0 ≤ value p / (k + 1) := by positivity
      have d1 : value p / (k + 1) ≤ 1 := by
        rw [div_le_one hk0]
        have : (0 : ℚ) ≤ k := by positivity
        linarith
      obtain ⟨q, h2, e2⟩ := hd.1 (by
        refine representable_within mode FP.zero o ?_ ?_
        · rw [C52_zero]; exact d0
        · rw [hov]; exact d1)
      have q0 : 0 ≤ value q := by rw [e2]; exact roundTo_nonneg _ _ d0
      have q1 : value q ≤ 1 := by rw [e2]; exact roundTo_le_one P mode d1
      have hkn : (k : ℚ) + 1 + 1 ≤ n + 1 := by
        have : ((k + 1 : Nat) : ℚ) ≤ n := by exact_mod_cast (by omega : k + 1 ≤ n)
        push_cast at this
        linarith
      obtain ⟨s', h3, e3⟩ := (C01_cadd_exact s q).1
        (representable_add (c := FP.max) (by linarith) (by rw [C52_bounds_value.2]; linarith))
      unfold expLoop
      rw [h1, ok_bind, h2, ok_bind, h3, ok_bind]
      refine ih (k + 1) q s' (by omega) q0 q1 (by rw [e3]; linarith) ?_
      rw [e3]; push_cast; linarith
  unfold expSeries
  rw [ho, ok_bind]
  exact key n 0 o o (by omega) (by rw [hov]; norm_num) hov.le (by rw [hov]; norm_num)
    (by rw [hov]; norm_num)

example := C122_returns (cfg := debugCfg) (by decide) .nearest 12 (⟨123456789⟩ : FP .i64 9)
  (by decide) (by unfold maxValue; rw [show rawMax .i64 = 9223372036854775807 by decide]; norm_num)
  (by rw [value_eq _ 123456789 (by decide)]; norm_num)
  (by rw [value_eq _ 123456789 (by decide)]; norm_num)

end Fixnum
