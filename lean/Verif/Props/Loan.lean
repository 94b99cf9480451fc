import Verif.Props.Balances
import Verif.Props.Clients
import Verif.Props.Power

/-! # Property C124: repaying a loan

Client code: every period interest `debt.rmul(rate, mode)?` is added to the debt, and a fixed payment, or
the whole debt if that is less, is taken off it. -/

namespace Fixnum

open Res Spec

variable {L : Layout} {P : Nat}

/-- One period: the interest, the payment and the debt after it. -/
def period (cfg : Cfg) (mode : RoundMode) (rate pay debt : FP L P) :
    Res ArithErr (FP L P × FP L P × FP L P) := do
  let i ← FP.rmul cfg debt rate mode
  let owed ← FP.cadd debt i
  let p := if FP.cmp owed pay = .gt then pay else owed
  let debt ← FP.csub owed p
  .ok (i, p, debt)

/-- The loop of the client, `while debt > ZERO`, for at most `n` periods: the interests and payments,
and the debt at the end. -/
def repay (cfg : Cfg) (mode : RoundMode) (rate pay : FP L P) :
    Nat → FP L P → Res ArithErr (List (FP L P × FP L P) × FP L P)
  | 0, debt => .ok ([], debt)
  | n + 1, debt =>
    if FP.cmp debt FP.zero = .gt then do
      let (i, p, debt) ← period cfg mode rate pay debt
      let (rows, e) ← repay cfg mode rate pay n debt
      .ok ((i, p) :: rows, e)
    else .ok ([], debt)

/-- The sum of the interests. -/
def Spec.interests (rows : List (FP L P × FP L P)) : ℚ := (rows.map fun x => value x.1).sum

/-- The sum of the payments. -/
def Spec.payments (rows : List (FP L P × FP L P)) : ℚ := (rows.map fun x => value x.2).sum

theorem cmp_gt_iff (a b : FP L P) : FP.cmp a b = .gt ↔ value b < value a := by
  rw [C54_cmp, compare_gt_iff_gt]

theorem period_value {cfg : Cfg} (hv : Valid cfg L P) {mode : RoundMode} {rate pay debt i p e : FP L P}
    (hr : 0 ≤ value rate) (hd : 0 ≤ value debt)
    (h : period cfg mode rate pay debt = .ok (i, p, e)) :
    value i = roundTo P mode (value debt * value rate) ∧
      value p = min (value debt + value i) (value pay) ∧ value e = value debt + value i - value p := by
  unfold period at h
  obtain ⟨i', h1, h⟩ := bind_ok_of h
  obtain ⟨o, h2, h⟩ := bind_ok_of h
  obtain ⟨e', h3, h⟩ := bind_ok_of h
  cases h
  have v2 := C01_cadd_ok _ _ _ h2
  have v3 := C02_csub_ok _ _ _ h3
  refine ⟨rmul_nonneg_value hv (mul_nonneg hd hr) h1, ?_, by rw [v3, v2]⟩
  rw [← v2]
  split
  · rename_i hc
    rw [cmp_gt_iff] at hc
    rw [min_eq_right hc.le]
  · rename_i hc
    rw [cmp_gt_iff, not_lt] at hc
    rw [min_eq_left hc]

theorem repay_succ {cfg : Cfg} {mode : RoundMode} {rate pay debt e : FP L P} {n : Nat}
    {rows : List (FP L P × FP L P)} (h : repay cfg mode rate pay (n + 1) debt = .ok (rows, e)) :
    (value debt ≤ 0 ∧ rows = [] ∧ e = debt) ∨
    (0 < value debt ∧ ∃ i p d rows', period cfg mode rate pay debt = .ok (i, p, d) ∧
      repay cfg mode rate pay n d = .ok (rows', e) ∧ rows = (i, p) :: rows') := by
  unfold repay at h
  split at h
  · rename_i hc
    rw [cmp_gt_iff, C52_zero] at hc
    obtain ⟨⟨i, p, d⟩, h1, h⟩ := bind_ok_of h
    obtain ⟨⟨rows', e'⟩, h2, h⟩ := bind_ok_of h
    cases h
    exact .inr ⟨hc, i, p, d, rows', h1, h2, rfl⟩
  · rename_i hc
    rw [cmp_gt_iff, C52_zero, not_lt] at hc
    cases h
    exact .inl ⟨hc, rfl, rfl⟩

/-- C124: what is paid is exactly what was borrowed and the interest, less the debt that is left; the
debt never gets negative, and no payment is more than agreed. -/
theorem C124_conserved {cfg : Cfg} (hv : Valid cfg L P) (mode : RoundMode) (rate pay : FP L P)
    (hr : 0 ≤ value rate) (hp : 0 ≤ value pay) (n : Nat) (debt e : FP L P)
    (rows : List (FP L P × FP L P)) (hd : 0 ≤ value debt)
    (h : repay cfg mode rate pay n debt = .ok (rows, e)) :
    payments rows + value e = value debt + interests rows ∧ 0 ≤ value e ∧
      ∀ x ∈ rows, 0 ≤ value x.1 ∧ 0 ≤ value x.2 ∧ value x.2 ≤ value pay := by
  induction n generalizing debt rows with
  | zero =>
    unfold repay at h
    cases h
    exact ⟨by simp [payments, interests], hd, by simp⟩
  | succ n ih =>
    rcases repay_succ h with ⟨-, rfl, rfl⟩ | ⟨h0, i, p, d, rows', h1, h2, rfl⟩
    · exact ⟨by simp [payments, interests], hd, by simp⟩
    · obtain ⟨v1, v2, v3⟩ := period_value hv hr hd h1
      have i0 : 0 ≤ value i := by rw [v1]; exact roundTo_nonneg P mode (mul_nonneg hd hr)
      have p0 : 0 ≤ value p := by rw [v2]; exact le_min (by linarith) hp
      have p1 : value p ≤ value debt + value i := by rw [v2]; exact min_le_left _ _
      have p2 : value p ≤ value pay := by rw [v2]; exact min_le_right _ _
      obtain ⟨k1, k2, k3⟩ := ih d rows' (by rw [v3]; linarith) h2
      refine ⟨?_, k2, ?_⟩
      · simp only [payments, interests, List.map_cons, List.sum_cons] at k1 ⊢
        rw [v3] at k1
        linarith
      · intro x hx
        rcases List.mem_cons.1 hx with rfl | hx
        · exact ⟨i0, p0, p2⟩
        · exact k3 x hx

example := C124_conserved (cfg := debugCfg) (by decide) .floor (⟨1⟩ : FP .i64 2) ⟨4000⟩ (by decide +kernel)
  (by decide +kernel) 3 ⟨10000⟩ ⟨0⟩ [(⟨100⟩, ⟨4000⟩), (⟨61⟩, ⟨4000⟩), (⟨21⟩, ⟨2182⟩)] (by decide +kernel)
  (by decide +kernel)

/-- 100.00 at 1 % with payments of 40.00: interest 1.00, 0.61 and 0.21, payments 40.00, 40.00, 21.82. -/
example : repay debugCfg .floor (⟨1⟩ : FP .i64 2) ⟨4000⟩ 10 ⟨10000⟩ =
    .ok ([(⟨100⟩, ⟨4000⟩), (⟨61⟩, ⟨4000⟩), (⟨21⟩, ⟨2182⟩)], ⟨0⟩) := by decide +kernel

theorem period_returns {cfg : Cfg} (hv : Valid cfg L P) {mode : RoundMode}
    (hm : mode = .nearest → ¬ (L = .i128 ∧ P = 38)) {rate pay debt : FP L P}
    (hr : 0 ≤ value rate) (hp : 0 ≤ value pay) (hd : 0 ≤ value debt)
    (hmax : value debt + roundTo P mode (value debt * value rate) ≤ maxValue L P) :
    ∃ i p e, period cfg mode rate pay debt = .ok (i, p, e) := by
  have h0 := roundTo_nonneg P mode (mul_nonneg hd hr)
  obtain ⟨i, e1, v1⟩ := (C07_rmul_partial hv debt rate mode hm).1 (by
    have hx : roundTo P mode (value debt * value rate) ≤ value (FP.max : FP L P) := by
      rw [C52_bounds_value.2]; linarith
    unfold roundTo at h0 hx ⊢
    exact representable_upTo h0 hx)
  obtain ⟨o, e2, v2⟩ := (C01_cadd_exact debt i).1
    (representable_add (c := FP.max) (by linarith) (by rw [C52_bounds_value.2]; linarith))
  have hle : ∀ p : FP L P, p = (if FP.cmp o pay = .gt then pay else o) →
      0 ≤ value p ∧ value p ≤ value o := by
    rintro p rfl
    split
    · rename_i hc
      rw [cmp_gt_iff] at hc
      exact ⟨hp, hc.le⟩
    · exact ⟨by rw [v2]; linarith, le_rfl⟩
  obtain ⟨k0, k1⟩ := hle _ rfl
  obtain ⟨e, e3, -⟩ := (C02_csub_exact o _).1
    (representable_sub (c := o) (by linarith [k1]) (by linarith [k0]))
  unfold period
  rw [e1, ok_bind, e2, ok_bind]
  dsimp only
  rw [e3, ok_bind]
  exact ⟨_, _, _, rfl⟩

theorem repay_ends {cfg : Cfg} (hv : Valid cfg L P) (mode : RoundMode)
    (hm : mode = .nearest → ¬ (L = .i128 ∧ P = 38)) (rate pay : FP L P) (hr : 0 ≤ value rate) (I : ℚ)
    (hI : I < value pay) (n : Nat) (debt : FP L P) (hd : 0 ≤ value debt)
    (hi : roundTo P mode (value debt * value rate) ≤ I) (hmax : value debt + I ≤ maxValue L P)
    (hn : debt.inner.toInt ≤ n) :
    ∃ rows e, repay cfg mode rate pay n debt = .ok (rows, e) ∧ value e = 0 ∧
      ((rows.length : ℚ) - 1) * (value pay - I) < value debt ∧
      ∀ x ∈ rows, value x.1 ≤ I := by
  have hD : 0 < value pay - I := by linarith
  have stop : ∀ d : FP L P, value d = 0 →
      value d = 0 ∧ ((([] : List (FP L P × FP L P)).length : ℚ) - 1) * (value pay - I) < value d ∧
        ∀ x ∈ ([] : List (FP L P × FP L P)), value x.1 ≤ I := by
    intro d h
    refine ⟨h, ?_, by simp⟩
    rw [h]
    simp only [List.length_nil, Nat.cast_zero]
    linarith
  induction n generalizing debt with
  | zero =>
    have h0 : value debt = 0 := by
      refine le_antisymm ?_ hd
      rw [← C52_zero (L := L) (P := P), value_le_iff]
      exact le_trans hn (by cases L <;> rfl)
    exact ⟨[], debt, rfl, stop debt h0⟩
  | succ n ih =>
    by_cases hz : value debt = 0
    · refine ⟨[], debt, ?_, stop debt hz⟩
      unfold repay
      rw [if_neg]
      rw [cmp_gt_iff, C52_zero, hz]
      exact lt_irrefl _
    · have hpos : 0 < value debt := lt_of_le_of_ne hd (Ne.symm hz)
      have i0 := roundTo_nonneg P mode (mul_nonneg hd hr)
      obtain ⟨i, p, d, h1⟩ := period_returns (cfg := cfg) hv hm hr (pay := pay) (by linarith) hd
        (by linarith)
      obtain ⟨v1, v2, v3⟩ := period_value hv hr hd h1
      have p1 : value p ≤ value debt + value i := by rw [v2]; exact min_le_left _ _
      have d0 : 0 ≤ value d := by rw [v3]; linarith
      have hlt : value d < value debt := by
        rw [v3, v2]
        rcases min_choice (value debt + value i) (value pay) with h | h <;> rw [h] <;> linarith
      obtain ⟨rows, e, k1, k2, k3, k4⟩ := ih d d0
        (le_trans (roundTo_mono P mode (mul_le_mul_of_nonneg_right hlt.le hr)) hi) (by linarith)
        (by have := (value_lt_iff _ _).1 hlt; push_cast at hn; omega)
      refine ⟨(i, p) :: rows, e, ?_, k2, ?_, ?_⟩
      · unfold repay
        rw [if_pos (by rw [cmp_gt_iff, C52_zero]; exact hpos), h1, ok_bind]
        dsimp only
        rw [k1, ok_bind]
      · rw [List.length_cons]
        push_cast
        rcases min_choice (value debt + value i) (value pay) with h | h
        · have dz : value d = 0 := by rw [v3, v2, h]; ring
          rw [dz] at k3
          have hl : (rows.length : ℚ) - 1 < 0 := by
            by_contra hc
            exact absurd k3 (not_lt.2 (mul_nonneg (not_lt.1 hc) hD.le))
          have hl : rows.length < 1 := by
            have : (rows.length : ℚ) < 1 := by linarith
            exact_mod_cast this
          have hl : rows.length = 0 := by omega
          rw [hl]
          simpa using hpos
        · rw [v3, v2, h] at k3
          linarith
      · intro x hx
        rcases List.mem_cons.1 hx with rfl | hx
        · show value i ≤ I
          rw [v1]; exact hi
        · exact k4 x hx

/-- C124: if the payment exceeds the first interest, the debt is repaid entirely, in fewer than
`1 + debt / (payment - interest)` periods, the interest of no period exceeds the first, and nothing
overflows unless the very first sum does. `Nearest` with 38 digits on `i128` panics, see C07. -/
theorem C124_ends {cfg : Cfg} (hv : Valid cfg L P) (mode : RoundMode)
    (hm : mode = .nearest → ¬ (L = .i128 ∧ P = 38)) (rate pay debt : FP L P)
    (hr : 0 ≤ value rate) (hd : 0 ≤ value debt)
    (hpay : roundTo P mode (value debt * value rate) < value pay)
    (hmax : value debt + roundTo P mode (value debt * value rate) ≤ maxValue L P)
    (n : Nat) (hn : value debt * 10 ^ P ≤ n) :
    ∃ rows e, repay cfg mode rate pay n debt = .ok (rows, e) ∧ value e = 0 ∧
      ((rows.length : ℚ) - 1) * (value pay - roundTo P mode (value debt * value rate)) <
        value debt ∧
      ∀ x ∈ rows, value x.1 ≤ roundTo P mode (value debt * value rate) := by
  refine repay_ends hv mode hm rate pay hr _ hpay n debt hd le_rfl hmax ?_
  unfold value at hn
  rw [div_mul_cancel₀ _ (ten_pow_ne P)] at hn
  exact_mod_cast hn

/-- The loan above meets the hypotheses: the interest 1.00 is less than the payment 40.00. -/
example : ∃ rows e, repay debugCfg .floor (⟨1⟩ : FP .i64 2) ⟨4000⟩ 10000 ⟨10000⟩ = .ok (rows, e) ∧
    value e = 0 ∧ rows.length ≤ 3 := by
  have v1 : value (⟨1⟩ : FP .i64 2) = 1 / 100 := by rw [value_eq _ 1 (by decide)]; norm_num
  have v2 : value (⟨4000⟩ : FP .i64 2) = 40 := by rw [value_eq _ 4000 (by decide)]; norm_num
  have v3 : value (⟨10000⟩ : FP .i64 2) = 100 := by rw [value_eq _ 10000 (by decide)]; norm_num
  have hi : roundTo 2 .floor (value (⟨10000⟩ : FP .i64 2) * value (⟨1⟩ : FP .i64 2)) = 1 := by
    rw [v1, v3]; norm_num [roundTo, Spec.round]
  obtain ⟨rows, e, h1, h2, h3, -⟩ := C124_ends (cfg := debugCfg) (by decide) .floor (by simp)
    (⟨1⟩ : FP .i64 2) ⟨4000⟩ ⟨10000⟩ (by rw [v1]; norm_num) (by rw [v3]; norm_num)
    (by rw [hi, v2]; norm_num) (by rw [hi, v3]; norm_num [maxValue, rawMax, Layout.bits]) 10000
    (by rw [v3]; norm_num)
  refine ⟨rows, e, h1, h2, ?_⟩
  rw [hi, v2, v3] at h3
  by_contra hc
  have : (4 : ℚ) ≤ rows.length := by exact_mod_cast not_le.1 hc
  linarith

/-- C124: if the payment does not exceed the first interest, the debt never falls, and the loop makes
all the periods it is allowed. -/
theorem C124_grows {cfg : Cfg} (hv : Valid cfg L P) (mode : RoundMode) (rate pay : FP L P)
    (hr : 0 ≤ value rate) (n : Nat) (debt e : FP L P) (rows : List (FP L P × FP L P))
    (hd : 0 < value debt) (hpay : value pay ≤ roundTo P mode (value debt * value rate))
    (h : repay cfg mode rate pay n debt = .ok (rows, e)) :
    value debt ≤ value e ∧ rows.length = n := by
  induction n generalizing debt rows with
  | zero =>
    unfold repay at h
    cases h
    exact ⟨le_rfl, rfl⟩
  | succ n ih =>
    rcases repay_succ h with ⟨h0, -, -⟩ | ⟨-, i, p, d, rows', h1, h2, rfl⟩
    · exact absurd hd (not_lt.2 h0)
    · obtain ⟨v1, v2, v3⟩ := period_value hv hr hd.le h1
      have p2 : value p ≤ value pay := by rw [v2]; exact min_le_right _ _
      have hle : value debt ≤ value d := by rw [v3, v1]; linarith
      obtain ⟨k1, k2⟩ := ih d rows' (by linarith)
        (le_trans hpay (roundTo_mono P mode (mul_le_mul_of_nonneg_right hle hr))) h2
      exact ⟨by linarith, by rw [List.length_cons, k2]⟩

example := C124_grows (cfg := debugCfg) (by decide) .ceil (⟨50⟩ : FP .i64 2) ⟨4999⟩ (by decide +kernel) 2 ⟨10000⟩
  ⟨10003⟩ [(⟨5000⟩, ⟨4999⟩), (⟨5001⟩, ⟨4999⟩)] (by decide +kernel) (by decide +kernel) (by decide +kernel)

/-- 100.00 at 50 % with payments of 50.00 stays; with payments of 49.99 it grows. -/
example : repay debugCfg .floor (⟨50⟩ : FP .i64 2) ⟨5000⟩ 3 ⟨10000⟩ =
    .ok ([(⟨5000⟩, ⟨5000⟩), (⟨5000⟩, ⟨5000⟩), (⟨5000⟩, ⟨5000⟩)], ⟨10000⟩) := by decide +kernel
example : repay debugCfg .ceil (⟨50⟩ : FP .i64 2) ⟨4999⟩ 2 ⟨10000⟩ =
    .ok ([(⟨5000⟩, ⟨4999⟩), (⟨5001⟩, ⟨4999⟩)], ⟨10003⟩) := by decide +kernel

end Fixnum
