import Verif.Props.Clients
import Verif.Props.Monotone

/-! # Property C118: powers by repeated squaring

Client code: `r = ONE; for each binary digit of the exponent, the first one first: r = r.rmul(r, mode)?;
if the digit is one: r = r.rmul(x, mode)?`. -/

namespace Fixnum

open Res Spec

variable {L : Layout} {P : Nat} {ε : Type}

/-- The loop of the client. -/
def powerLoop (cfg : Cfg) (mode : RoundMode) (x : FP L P) : List Bool → FP L P → Res ArithErr (FP L P)
  | [], r => .ok r
  | b :: bs, r => do
    let r ← FP.rmul cfg r r mode
    let r ← if b then FP.rmul cfg r x mode else .ok r
    powerLoop cfg mode x bs r

/-- The client. -/
def power (cfg : Cfg) (mode : RoundMode) (x : FP L P) (digits : List Bool) : Res ArithErr (FP L P) := do
  let one ← FP.one cfg
  powerLoop cfg mode x digits one

/-- The number with the given binary digits, the first one first. -/
def Spec.exponent (digits : List Bool) : Nat := digits.foldl (fun n b => 2 * n + b.toNat) 0

/-- Every exponent has binary digits. -/
theorem exponent_surjective (n : Nat) : ∃ digits, exponent digits = n := by
  induction n using Nat.strong_induction_on with
  | _ n ih =>
    rcases Nat.eq_zero_or_pos n with rfl | hn
    · exact ⟨[], rfl⟩
    · obtain ⟨ds, h⟩ := ih (n / 2) (by omega)
      refine ⟨ds ++ [decide (n % 2 = 1)], ?_⟩
      unfold exponent at h ⊢
      rw [List.foldl_append, h]
      by_cases hb : n % 2 = 1
      · simp [hb]; omega
      · simp [hb]; omega

/-- For numbers of one sign `rmul` rounds the exact product in every mode and every build. -/
theorem rmul_nonneg_value {cfg : Cfg} (hv : Valid cfg L P) {a b r : FP L P} {mode : RoundMode}
    (h0 : 0 ≤ value a * value b) (h : FP.rmul cfg a b mode = .ok r) :
    value r = roundTo P mode (value a * value b) := by
  by_cases hm : mode ≠ .nearest ∨ cfg.overflowChecks = true
  · exact rmul_checked_value hv hm h
  · have h1 : mode = .nearest := by by_contra hc; exact hm (.inl hc)
    have h2 : cfg.overflowChecks = false := by
      cases hc : cfg.overflowChecks
      · rfl
      · exact absurd (.inr hc) hm
    subst h1
    by_cases hs : RmulSafe L P (a.inner.toInt * b.inner.toInt)
    · exact ((C07_rmul_remainder_partial hv a b .nearest fun _ => hs).ok_iff r).1 h
    · have := ((C07_rmul_wrapped hv h2 a b hs).ok_iff r).1 h
      rwa [if_pos h0] at this

/-- One step of the loop. -/
theorem powerLoop_cons {cfg : Cfg} {mode : RoundMode} {x s r : FP L P} {b : Bool} {bs : List Bool}
    (h : powerLoop cfg mode x (b :: bs) s = .ok r) :
    ∃ t u, FP.rmul cfg s s mode = .ok t ∧ ((b = true ∧ FP.rmul cfg t x mode = .ok u) ∨
      (b = false ∧ u = t)) ∧ powerLoop cfg mode x bs u = .ok r := by
  unfold powerLoop at h
  obtain ⟨t, h1, h⟩ := bind_ok_of h
  cases b with
  | true =>
    rw [if_pos rfl] at h
    obtain ⟨u, h2, h⟩ := bind_ok_of h
    exact ⟨t, u, h1, .inl ⟨rfl, h2⟩, h⟩
  | false => exact ⟨t, t, h1, .inr ⟨rfl, rfl⟩, h⟩

theorem roundTo_nonneg (P : Nat) (mode : RoundMode) {q : ℚ} (h : 0 ≤ q) : 0 ≤ roundTo P mode q := by
  have h1 := roundTo_mono P mode h
  have h2 : roundTo P mode 0 = 0 := by
    unfold roundTo
    rw [zero_mul, show (0 : ℚ) = ((0 : Int) : ℚ) by norm_num, round_int]
    simp
  rwa [h2] at h1

theorem roundTo_one (P : Nat) (mode : RoundMode) : roundTo P mode 1 = 1 := by
  unfold roundTo
  rw [one_mul, show (10 : ℚ) ^ P = ((10 ^ P : Int) : ℚ) by push_cast; rfl, round_int]
  push_cast
  exact div_self (ten_pow_ne P)

theorem roundTo_le_one (P : Nat) (mode : RoundMode) {q : ℚ} (h : q ≤ 1) : roundTo P mode q ≤ 1 := by
  have := roundTo_mono P mode h
  rwa [roundTo_one] at this

/-- A property of exponent and number that is kept by squaring and by multiplying is one of the power. -/
theorem power_induction {cfg : Cfg} (hv : Valid cfg L P) {mode : RoundMode} {x r : FP L P}
    (hx : 0 ≤ value x) {digits : List Bool} (h : power cfg mode x digits = .ok r)
    (Q : Nat → ℚ → Prop) (h1 : Q 0 1)
    (hsq : ∀ n q, 0 ≤ q → Q n q → Q (2 * n) (roundTo P mode (q * q)))
    (hmul : ∀ n q, 0 ≤ q → (∃ c : FP L P, value c = q) → Q (2 * n) q →
      Q (2 * n + 1) (roundTo P mode (q * value x))) :
    0 ≤ value r ∧ Q (exponent digits) (value r) := by
  unfold power at h
  obtain ⟨o, ho, hov⟩ := C52_one (ε := ArithErr) hv
  rw [ho, ok_bind] at h
  unfold exponent
  have key : ∀ (bs : List Bool) (n : Nat) (s : FP L P), 0 ≤ value s → Q n (value s) →
      powerLoop cfg mode x bs s = .ok r →
      0 ≤ value r ∧ Q (bs.foldl (fun n b => 2 * n + b.toNat) n) (value r) := by
    intro bs
    induction bs with
    | nil => intro n s hs hq h; injection h with h; subst h; exact ⟨hs, hq⟩
    | cons b bs ih =>
      intro n s hs hq h
      obtain ⟨t, u, e1, e2, k⟩ := powerLoop_cons h
      have e1 := rmul_nonneg_value hv (mul_nonneg hs hs) e1
      have ht : 0 ≤ value t := by rw [e1]; exact roundTo_nonneg P mode (mul_nonneg hs hs)
      have q1 := hsq n _ hs hq
      rw [← e1] at q1
      rw [List.foldl_cons]
      rcases e2 with ⟨rfl, e2⟩ | ⟨rfl, rfl⟩
      · have e2 := rmul_nonneg_value hv (mul_nonneg ht hx) e2
        refine ih _ u ?_ ?_ k
        · rw [e2]; exact roundTo_nonneg P mode (mul_nonneg ht hx)
        · rw [e2]; exact hmul n _ ht ⟨t, rfl⟩ q1
      · exact ih _ u ht q1 k
  exact key digits 0 o (by rw [hov]; norm_num) (by rw [hov]; exact h1) h

/-- C118: with `Floor` the result is at most the power, with `Ceil` at least the power. -/
theorem C118_directed {cfg : Cfg} (hv : Valid cfg L P) (x r : FP L P) (hx : 0 ≤ value x)
    (digits : List Bool) :
    (power cfg .floor x digits = .ok r → value r ≤ value x ^ exponent digits) ∧
    (power cfg .ceil x digits = .ok r → value x ^ exponent digits ≤ value r) := by
  constructor
  · intro h
    refine (power_induction hv hx h (fun n q => q ≤ value x ^ n) (by simp) ?_ ?_).2
    · intro n q h0 hq
      refine (roundTo_floor_spec P _).1.trans ?_
      rw [two_mul, pow_add]
      exact mul_le_mul hq hq h0 (pow_nonneg hx n)
    · rintro n q h0 - hq
      refine (roundTo_floor_spec P _).1.trans ?_
      rw [pow_succ]
      exact mul_le_mul_of_nonneg_right hq hx
  · intro h
    refine (power_induction hv hx h (fun n q => value x ^ n ≤ q) (by simp) ?_ ?_).2
    · intro n q h0 hq
      refine le_trans ?_ (roundTo_ceil_spec P _).1
      rw [two_mul, pow_add]
      exact mul_le_mul hq hq (pow_nonneg hx n) h0
    · rintro n q h0 - hq
      refine le_trans ?_ (roundTo_ceil_spec P _).1
      rw [pow_succ]
      exact mul_le_mul_of_nonneg_right hq hx

-- 1.05^5 = 1.2762815625 as 1.27 and 1.31
example : Valid ⟨true, true, true, true⟩ .i64 2 ∧ exponent [true, false, true] = 5 ∧
    power ⟨true, true, true, true⟩ .floor (⟨105⟩ : FP .i64 2) [true, false, true] = .ok ⟨127⟩ ∧
    power ⟨true, true, true, true⟩ .ceil (⟨105⟩ : FP .i64 2) [true, false, true] = .ok ⟨131⟩ := by
  decide +kernel

example := (C118_directed (cfg := ⟨true, true, true, true⟩) (by decide) (⟨105⟩ : FP .i64 2) ⟨127⟩
  (by decide +kernel) [true, false, true]).1 (by decide +kernel)

/-- C118: of a number from 0 to 1, the `n`-th power is computed to at most `n - 1` units, that is exactly for
`n ≤ 1`, in every mode and every build; the result is again from 0 to 1. -/
theorem C118_error {cfg : Cfg} (hv : Valid cfg L P) (mode : RoundMode) (x r : FP L P)
    (hx : 0 ≤ value x ∧ value x ≤ 1) (digits : List Bool) (h : power cfg mode x digits = .ok r) :
    0 ≤ value r ∧ value r ≤ 1 ∧
    |value r - value x ^ exponent digits| ≤ (exponent digits - 1 : Nat) / 10 ^ P := by
  have hp := ten_pow_pos P
  have key := power_induction hv hx.1 h
    (fun n q => q ≤ 1 ∧ |q - value x ^ n| ≤ (n - 1 : Nat) / 10 ^ P) (by simp) ?_ ?_
  · exact ⟨key.1, key.2.1, key.2.2⟩
  · rintro n q h0 ⟨h1, hq⟩
    refine ⟨roundTo_le_one P mode (by nlinarith), ?_⟩
    rcases Nat.eq_zero_or_pos n with rfl | hn
    · have : q = 1 := by
        simp at hq
        linarith
      subst this
      rw [mul_one, roundTo_one]
      simp
    · have e1 := (roundTo_error P mode (q * q)).le
      have hn0 := pow_nonneg hx.1 n
      have hn1 := pow_le_one₀ (n := n) hx.1 hx.2
      have e2 : |q * q - value x ^ (2 * n)| ≤ 2 * ((n - 1 : Nat) / 10 ^ P) := by
        rw [show q * q - value x ^ (2 * n) = (q - value x ^ n) * (q + value x ^ n) by
          rw [two_mul, pow_add]; ring, abs_mul, abs_of_nonneg (add_nonneg h0 hn0), mul_comm]
        exact mul_le_mul (by linarith) hq (abs_nonneg _) (by norm_num)
      have e3 : ((2 * n - 1 : Nat) : ℚ) / 10 ^ P = 1 / 10 ^ P + 2 * ((n - 1 : Nat) / 10 ^ P) := by
        rw [show 2 * n - 1 = 1 + 2 * (n - 1) by omega]
        push_cast
        ring
      rw [e3]
      calc |roundTo P mode (q * q) - value x ^ (2 * n)|
          ≤ |roundTo P mode (q * q) - q * q| + |q * q - value x ^ (2 * n)| := abs_sub_le _ _ _
        _ ≤ _ := add_le_add e1 e2
  · rintro n q h0 ⟨c, hc⟩ ⟨h1, hq⟩
    refine ⟨roundTo_le_one P mode (mul_le_one₀ h1 hx.1 hx.2), ?_⟩
    rcases Nat.eq_zero_or_pos n with rfl | hn
    · have : q = 1 := by
        simp at hq
        linarith
      subst this
      rw [one_mul, roundTo_value]
      simp
    · have e1 := (roundTo_error P mode (q * value x)).le
      have e2 : |q * value x - value x ^ (2 * n + 1)| ≤ (2 * n - 1 : Nat) / 10 ^ P := by
        rw [pow_succ, ← sub_mul, abs_mul, abs_of_nonneg hx.1]
        exact (mul_le_of_le_one_right (abs_nonneg _) hx.2).trans hq
      have e3 : ((2 * n + 1 - 1 : Nat) : ℚ) / 10 ^ P = 1 / 10 ^ P + (2 * n - 1 : Nat) / 10 ^ P := by
        rw [show 2 * n + 1 - 1 = 1 + (2 * n - 1) by omega]
        push_cast
        ring
      rw [e3]
      calc |roundTo P mode (q * value x) - value x ^ (2 * n + 1)|
          ≤ |roundTo P mode (q * value x) - q * value x| + |q * value x - value x ^ (2 * n + 1)| :=
            abs_sub_le _ _ _
        _ ≤ _ := add_le_add e1 e2

-- 0.99^10 = 0.904382… as 0.90
example : power ⟨true, true, true, true⟩ .floor (⟨99⟩ : FP .i64 2) [true, false, true, false] =
      .ok ⟨90⟩ := by decide +kernel
example := C118_error (cfg := ⟨true, true, true, true⟩) (by decide) .floor (⟨99⟩ : FP .i64 2) ⟨90⟩
  (by decide +kernel) [true, false, true, false] (by decide +kernel)

/-- C118: of a number from 0 to 1 every power is computed: no overflow, no panic.  `Nearest` with 38
digits on `i128` panics, see C07. -/
theorem C118_returns {cfg : Cfg} (hv : Valid cfg L P) (mode : RoundMode)
    (hm : mode = .nearest → ¬ (L = .i128 ∧ P = 38)) (x : FP L P)
    (hx : 0 ≤ value x ∧ value x ≤ 1) (digits : List Bool) :
    ∃ r, power cfg mode x digits = .ok r := by
  obtain ⟨o, ho, hov⟩ := C52_one (ε := ArithErr) hv
  have hmul : ∀ a b : FP L P, (0 ≤ value a ∧ value a ≤ 1) → (0 ≤ value b ∧ value b ≤ 1) →
      ∃ c, FP.rmul cfg a b mode = .ok c ∧ (0 ≤ value c ∧ value c ≤ 1) := by
    intro a b ha hb
    have h0 := roundTo_nonneg P mode (mul_nonneg ha.1 hb.1)
    have h1 := roundTo_le_one P mode (mul_le_one₀ ha.2 hb.1 hb.2)
    obtain ⟨c, hc, e⟩ := (C07_rmul_partial hv a b mode hm).1 (by
      refine representable_within mode FP.zero o ?_ ?_
      · rw [C52_zero]; exact mul_nonneg ha.1 hb.1
      · rw [hov]; exact mul_le_one₀ ha.2 hb.1 hb.2)
    exact ⟨c, hc, by rw [e]; exact ⟨h0, h1⟩⟩
  have key : ∀ (bs : List Bool) (s : FP L P), (0 ≤ value s ∧ value s ≤ 1) →
      ∃ r, powerLoop cfg mode x bs s = .ok r := by
    intro bs
    induction bs with
    | nil => exact fun s _ => ⟨s, rfl⟩
    | cons b bs ih =>
      intro s hs
      obtain ⟨t, e1, ht⟩ := hmul s s hs hs
      unfold powerLoop
      rw [e1, ok_bind]
      cases b with
      | true =>
        obtain ⟨u, e2, hu⟩ := hmul t x ht hx
        rw [if_pos rfl, e2, ok_bind]
        exact ih u hu
      | false => exact ih t ht
  unfold power
  rw [ho, ok_bind]
  exact key digits o (by rw [hov]; norm_num)

example := C118_returns (cfg := ⟨true, true, true, true⟩) (by decide) .nearest (by decide)
  (⟨99⟩ : FP .i64 2) (by decide +kernel) [true, false, true, false]

/-- C118: powers keep the order, in every mode and every build. -/
theorem C118_mono {cfg cfg' : Cfg} (hv : Valid cfg L P) (hv' : Valid cfg' L P) (mode : RoundMode)
    (x y r s : FP L P) (hx : 0 ≤ value x) (hxy : value x ≤ value y) (digits : List Bool)
    (hr : power cfg mode x digits = .ok r) (hs : power cfg' mode y digits = .ok s) :
    value r ≤ value s := by
  obtain ⟨o, ho, hov⟩ := C52_one (ε := ArithErr) hv
  obtain ⟨o', ho', hov'⟩ := C52_one (ε := ArithErr) hv'
  unfold power at hr hs
  rw [ho, ok_bind] at hr
  rw [ho', ok_bind] at hs
  have key : ∀ (bs : List Bool) (a b : FP L P), 0 ≤ value a → value a ≤ value b →
      powerLoop cfg mode x bs a = .ok r → powerLoop cfg' mode y bs b = .ok s → value r ≤ value s := by
    intro bs
    induction bs with
    | nil =>
      intro a b _ h hr hs
      injection hr with hr; injection hs with hs
      subst hr hs
      exact h
    | cons c bs ih =>
      intro a b ha hab hr hs
      obtain ⟨t, u, e1, e2, kr⟩ := powerLoop_cons hr
      obtain ⟨t', u', e1', e2', ks⟩ := powerLoop_cons hs
      have hb := ha.trans hab
      have e1 := rmul_nonneg_value hv (mul_nonneg ha ha) e1
      have e1' := rmul_nonneg_value hv' (mul_nonneg hb hb) e1'
      have ht : 0 ≤ value t := by rw [e1]; exact roundTo_nonneg P mode (mul_nonneg ha ha)
      have htt : value t ≤ value t' := by
        rw [e1, e1']; exact roundTo_mono P mode (mul_le_mul hab hab ha hb)
      rcases e2 with ⟨rfl, e2⟩ | ⟨rfl, rfl⟩
      · rcases e2' with ⟨-, e2'⟩ | ⟨h, -⟩
        · have e2 := rmul_nonneg_value hv (mul_nonneg ht hx) e2
          have e2' := rmul_nonneg_value hv' (mul_nonneg (ht.trans htt) (hx.trans hxy)) e2'
          refine ih u u' ?_ ?_ kr ks
          · rw [e2]; exact roundTo_nonneg P mode (mul_nonneg ht hx)
          · rw [e2, e2']
            exact roundTo_mono P mode (mul_le_mul htt hxy hx (ht.trans htt))
        · cases h
      · rcases e2' with ⟨h, -⟩ | ⟨-, rfl⟩
        · cases h
        · exact ih _ _ ht htt kr ks
  exact key digits o o' (by rw [hov]; norm_num) (by rw [hov, hov']) hr hs

example := C118_mono (cfg := ⟨true, true, true, true⟩) (cfg' := ⟨false, false, true, true⟩) (by decide)
  (by decide) .nearest (⟨105⟩ : FP .i64 2) ⟨107⟩ ⟨127⟩ ⟨139⟩ (by decide +kernel) (by decide +kernel)
  [true, false, true] (by decide +kernel) (by decide +kernel)

end Fixnum
