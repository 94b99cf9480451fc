import Verif.Props.FloatClosed
import Verif.SqrtGuessBasic

/-! # Property C104: the `f64` nearest to a decimal number is converted to that number -/

namespace Fixnum

open Res Spec F64

variable {L : Layout} {P : Nat} {ε : Type}

theorem lit_aux1 {n : ℚ} (h : n ≤ 2 ^ 52 - 1) (h' : 2 ^ 52 ≤ n * (1 + 1 / 2 ^ 53)) : False := by
  norm_num at h h'
  linarith

theorem lit_aux2 {D w : ℚ} (h : 2 ^ 52 + 1 ≤ D) (h' : w < 2 ^ 52) (hw : -(D / 2 ^ 53) ≤ w - D) :
    False := by
  norm_num at h h' hw
  linarith

theorem lit_aux3 {D : ℚ} (h : D ≤ 2 ^ 52) : D / 2 ^ 53 ≤ 1 / 2 := by
  norm_num at h ⊢
  linarith

theorem lit_aux4 {D w : ℚ} (h : D ≤ 4 * 10 ^ 15) (hw : w - D ≤ D / 2 ^ 53) : w - 4 / 9 ≤ D := by
  norm_num at h hw ⊢
  linarith

/-- The cut of what is nearly the decimal number `n/10^k`. -/
theorem cut_literal {n k : Nat} (hn : 0 < n) (hn' : n < 2 ^ 52) {y t : ℚ}
    (hy : |y - n / 10 ^ k| ≤ n / 10 ^ k / 2 ^ 53) (ht : DecimalCut y t) :
    t = n / 10 ^ k ∨
      ∃ i : Nat, 4 * 10 ^ 15 < n * 10 ^ i ∧ n * 10 ^ i < 2 ^ 52 ∧ t = (n * 10 ^ i + 1) / 10 ^ (k + i) := by
  obtain ⟨g, g1, g2, g3, rfl⟩ := ht
  have hpk : (0 : ℚ) < 10 ^ k := by positivity
  have hnq : (n : ℚ) ≤ 2 ^ 52 - 1 := by
    have : n + 1 ≤ 2 ^ 52 := hn'
    have : (n : ℚ) + 1 ≤ 2 ^ 52 := by exact_mod_cast this
    linarith
  have hn0 : (1 : ℚ) ≤ n := by exact_mod_cast hn
  obtain ⟨y1, y2⟩ := abs_le.1 hy
  -- no place above the last digit
  have hg : g ≤ -(k : Int) := by
    by_contra hc
    have h1 : (10 : ℚ) ^ (-(k : Int)) ≤ 10 ^ (g - 1) := zpow_le_zpow_right₀ (by norm_num) (by omega)
    have h2 : (2 : ℚ) ^ 52 * 10 ^ (-(k : Int)) ≤ y :=
      le_trans (mul_le_mul_of_nonneg_left h1 (by positivity)) g3
    rw [zpow_neg, zpow_natCast, ← div_eq_mul_inv] at h2
    have h3 : (2 : ℚ) ^ 52 / 10 ^ k ≤ n * (1 + 1 / 2 ^ 53) / 10 ^ k := by
      have e : (n : ℚ) * (1 + 1 / 2 ^ 53) / 10 ^ k = n / 10 ^ k + n / 10 ^ k / 2 ^ 53 := by ring
      rw [e]
      linarith
    have h4 := (div_le_div_iff_of_pos_right hpk).1 h3
    exact lit_aux1 hnq h4
  obtain ⟨i, hi⟩ : ∃ i : Nat, g = -((k + i : Nat) : Int) := ⟨(-g - k).toNat, by omega⟩
  have hten : (10 : ℚ) ^ g = (10 ^ (k + i))⁻¹ := by rw [hi, zpow_neg, zpow_natCast]
  have hpki : (0 : ℚ) < 10 ^ (k + i) := by positivity
  have eD : (n : ℚ) / 10 ^ k = ((n * 10 ^ i : Nat) : ℚ) / 10 ^ (k + i) := by
    push_cast
    rw [pow_add]
    field_simp
  have hD1 : 0 < n * 10 ^ i := by positivity
  generalize hD : n * 10 ^ i = D at eD hD1
  generalize hw : y * 10 ^ (k + i) = w
  have hwD : |w - D| ≤ D / 2 ^ 53 := by
    rw [eD] at hy
    have h1 := mul_le_mul_of_nonneg_right hy hpki.le
    have e1 : |y - (D : ℚ) / 10 ^ (k + i)| * 10 ^ (k + i) = |w - D| := by
      rw [← hw, ← abs_of_pos hpki, ← abs_mul, abs_of_pos hpki]
      congr 1
      field_simp
    have e2 : (D : ℚ) / 10 ^ (k + i) / 2 ^ 53 * 10 ^ (k + i) = D / 2 ^ 53 := by field_simp
    rwa [e1, e2] at h1
  have hwg : y / 10 ^ g = w := by rw [hten, div_inv_eq_mul, hw]
  rw [hwg, hten, ← div_eq_mul_inv, eD]
  obtain ⟨w1, w2⟩ := abs_le.1 hwD
  -- the significand
  have hDle : D < 2 ^ 52 ∨ (D = 2 ^ 52 ∧ w < D) := by
    rcases g2 with g2 | g2
    · left
      have : k = 0 ∧ i = 0 := by omega
      rw [← hD, this.2, pow_zero, mul_one]
      exact hn'
    · have h1 : w < 2 ^ 52 := by rw [← hwg, div_lt_iff₀ (by positivity)]; exact g2
      have h2 : D ≤ 2 ^ 52 := by
        by_contra hc
        have : (2 : ℚ) ^ 52 + 1 ≤ D := by
          have : 2 ^ 52 + 1 ≤ D := by omega
          exact_mod_cast this
        exact lit_aux2 this h1 w1
      rcases Nat.lt_or_ge D (2 ^ 52) with h | h
      · exact .inl h
      · right
        have h3 : D = 2 ^ 52 := by omega
        refine ⟨h3, ?_⟩
        rw [h3]
        exact_mod_cast h1
  have hDq : (D : ℚ) ≤ 2 ^ 52 := by
    have : D ≤ 2 ^ 52 := by omega
    exact_mod_cast this
  have hD2 : (D : ℚ) / 2 ^ 53 ≤ 1 / 2 := lit_aux3 hDq
  by_cases hc : w - 4 / 9 ≤ D
  · left
    rw [round49_eq hc (by linarith)]
    simp
  · right
    refine ⟨i, ?_, ?_, ?_⟩
    · rw [hD]
      by_contra hle
      have : (D : ℚ) ≤ 4 * 10 ^ 15 := by
        have : D ≤ 4 * 10 ^ 15 := by omega
        exact_mod_cast this
      exact hc (lit_aux4 this w2)
    · rw [hD]
      rcases hDle with h | ⟨-, h⟩
      · exact h
      · exact absurd (show w - 4 / 9 ≤ D by linarith) hc
    · rw [round49_eq (r := D + 1) (by push_cast; linarith) (by push_cast; linarith)]
      rw [← hD]
      push_cast
      rfl

/-- What is nearest to a decimal number, with its relative error. -/
theorem nearest_literal {n k : Nat} (hn : 0 < n) (hn' : n < 2 ^ 52) (hk : k ≤ 38) {d : ℚ}
    (hd : |d| = n / 10 ^ k) {f : BitVec 64} (hf : f64Nearest f d) :
    |(|f64Value f|) - n / 10 ^ k| ≤ n / 10 ^ k / 2 ^ 53 ∧ f64Value f ≠ 0 ∧
      (f64Value f < 0 ↔ d < 0) := by
  have hnq : (n : ℚ) < 2 ^ 52 := by exact_mod_cast hn'
  have hn0 : (1 : ℚ) ≤ n := by exact_mod_cast hn
  have hpk : (1 : ℚ) ≤ 10 ^ k := one_le_pow₀ (by norm_num)
  have hpk' : (10 : ℚ) ^ k ≤ 10 ^ 38 := pow_le_pow_right₀ (by norm_num) hk
  have hd0 : d ≠ 0 := by
    intro hc
    rw [hc, abs_zero] at hd
    have : (0 : ℚ) < n / 10 ^ k := by positivity
    linarith
  have hup : |d| ≤ 2 ^ 52 := by
    rw [hd, div_le_iff₀ (by positivity)]
    have : (0 : ℚ) ≤ 2 ^ 52 := by positivity
    nlinarith
  have hbig : |d| < 2 ^ 1023 :=
    lt_of_le_of_lt hup (pow_lt_pow_right₀ (by norm_num) (by norm_num))
  have hlow : (2 : ℚ) ^ (-1022 : Int) ≤ |d| := by
    rw [hd, le_div_iff₀ (by positivity)]
    calc (2 : ℚ) ^ (-1022 : Int) * 10 ^ k ≤ 2 ^ (-200 : Int) * 10 ^ 38 :=
          mul_le_mul (zpow_le_zpow_right₀ (by norm_num) (by norm_num)) hpk' (by positivity)
            (by positivity)
      _ ≤ 1 := by norm_num
      _ ≤ n := hn0
  have h1 := ofRat_rel hbig (.inr hlow)
  rw [← f64Nearest_value hbig hf] at h1
  have h2 : |(|f64Value f|) - (|d|)| ≤ |d| / 2 ^ 53 := (abs_abs_sub_abs_le _ _).trans h1
  rw [hd] at h2
  have hne : f64Value f ≠ 0 := by
    intro hc
    rw [hc, abs_zero, zero_sub, abs_neg, abs_of_nonneg (by positivity)] at h2
    have : (0 : ℚ) < n / 10 ^ k := by positivity
    norm_num at h2
    linarith
  refine ⟨h2, hne, ?_⟩
  rw [← hf.2.1]
  have hm := magnitude_nonneg f
  unfold f64Value at hne ⊢
  split at hne
  · rename_i h
    simp only [h, if_true, iff_true]
    rcases hm.lt_or_eq with h' | h'
    · linarith
    · exact absurd (by linarith) hne
  · rename_i h
    simp only [h, if_false, iff_false, not_lt]
    exact hm

/-- C104, the exact outcome: the `f64` nearest to a decimal number `d = ±n/10^k` with `n < 2^52` is
converted to `d`, or to a number whose absolute value is more by one unit of the sixteenth
significant digit; the latter only if the first sixteen digits lie between `4·10^15` and `2^52`. -/
theorem C104_outcome (cfg : Cfg) {n k : Nat} (hn : 0 < n) (hn' : n < 2 ^ 52) (hkP : k ≤ P)
    (hP : P ≤ 38) {d : ℚ} (hd : |d| = n / 10 ^ k) {f : BitVec 64} (hf : f64Nearest f d) :
    ∃ r : Nat, (r = n * 10 ^ (P - k) ∨ ∃ i, k + i ≤ P ∧ 4 * 10 ^ 15 < n * 10 ^ i ∧
        n * 10 ^ i < 2 ^ 52 ∧ r = n * 10 ^ (P - k) + 10 ^ (P - (k + i))) ∧
      ((r : Int) ≤ rawMax L → ∃ x : FP L P, FP.tryFromF64 cfg f = .ok x ∧
        value x = (if d < 0 then -1 else 1) * r / 10 ^ P) ∧
      (rawMax L < r →
        (FP.tryFromF64 cfg f : Res ConvErr (FP L P)) = .err ⟨"too big number"⟩) := by
  obtain ⟨h1, h2, h3⟩ := nearest_literal hn hn' (by omega) hd hf
  obtain ⟨t, ht, -⟩ := C64_cut_unique |f64Value f| (abs_pos.2 h2)
  have h4 := C103_closed_form (L := L) cfg hP f hf.1 h2 t ht
  have hs : (if f64Value f < 0 then (-1 : ℚ) else 1) = if d < 0 then -1 else 1 := by
    by_cases hc : d < 0
    · rw [if_pos hc, if_pos (h3.2 hc)]
    · rw [if_neg hc, if_neg (fun h => hc (h3.1 h))]
  rw [hs] at h4
  have scale : ∀ j : Nat, j ≤ P → (10 : ℚ) ^ P = 10 ^ j * 10 ^ (P - j) := by
    intro j hj
    rw [← pow_add]
    congr 1
    omega
  have fin : ∀ r : Nat, round49 (t * 10 ^ P) = r → ((r : Int) ≤ rawMax L → ∃ x : FP L P,
        FP.tryFromF64 cfg f = .ok x ∧ value x = (if d < 0 then -1 else 1) * r / 10 ^ P) ∧
      (rawMax L < r →
        (FP.tryFromF64 cfg f : Res ConvErr (FP L P)) = .err ⟨"too big number"⟩) := by
    intro r hr
    rw [hr] at h4
    simpa using h4
  rcases cut_literal hn hn' h1 ht with e | ⟨i, i1, i2, e⟩
  · refine ⟨n * 10 ^ (P - k), .inl rfl, fin _ ?_⟩
    have : t * 10 ^ P = ((n * 10 ^ (P - k) : Nat) : Int) := by
      rw [e, scale k hkP]
      push_cast
      field_simp
    rw [this, round49_int]
  · by_cases hi : k + i ≤ P
    · refine ⟨_, .inr ⟨i, hi, i1, i2, rfl⟩, fin _ ?_⟩
      have : t * 10 ^ P = ((n * 10 ^ (P - k) + 10 ^ (P - (k + i)) : Nat) : Int) := by
        have hpp : P - k = i + (P - (k + i)) := by omega
        rw [e, scale (k + i) hi, hpp, pow_add 10 i]
        push_cast
        field_simp
      rw [this, round49_int]
    · refine ⟨n * 10 ^ (P - k), .inl rfl, fin _ ?_⟩
      obtain ⟨m, hm⟩ : ∃ m, k + i = P + (m + 1) := ⟨k + i - P - 1, by omega⟩
      have e2 : t * 10 ^ P = ((n * 10 ^ (P - k) : Nat) : ℚ) + 1 / 10 ^ (m + 1) := by
        have hi2 : i = (P - k) + (m + 1) := by omega
        rw [e, hm, pow_add, hi2, pow_add 10 (P - k)]
        push_cast
        field_simp
      have hm10 : (1 : ℚ) / 10 ^ (m + 1) ≤ 1 / 10 := by
        apply one_div_le_one_div_of_le (by norm_num)
        rw [pow_succ]
        have : (1 : ℚ) ≤ 10 ^ m := one_le_pow₀ (by norm_num)
        linarith
      have hm0 : (0 : ℚ) < 1 / 10 ^ (m + 1) := by positivity
      rw [round49_eq (r := n * 10 ^ (P - k))] <;> rw [e2] <;> linarith

example := C104_outcome (L := .i64) (P := 9) debugCfg (n := 1) (k := 1) (by decide) (by norm_num)
  (by decide) (by decide) (d := -1 / 10) (by decide +kernel) (C46_model_rounding (by decide +kernel))

/-- C104 (partial: no prefix of the significand between `4·10^15` and `2^52` within the precision).
The `f64` nearest to a decimal number of at most fifteen significant digits (`n < 2^52`) is converted
to exactly that number, or rejected if it is out of range. -/
theorem C104_literal_partial (cfg : Cfg) {n k : Nat} (hn : 0 < n) (hn' : n < 2 ^ 52) (hkP : k ≤ P)
    (hP : P ≤ 38) {d : ℚ} (hd : |d| = n / 10 ^ k) {f : BitVec 64} (hf : f64Nearest f d)
    (hl : ∀ i, k + i ≤ P → 4 * 10 ^ 15 < n * 10 ^ i → 2 ^ 52 ≤ n * 10 ^ i) :
    ((n * 10 ^ (P - k) : Int) ≤ rawMax L → ∃ x : FP L P, FP.tryFromF64 cfg f = .ok x ∧ value x = d) ∧
      (rawMax L < (n * 10 ^ (P - k) : Int) →
        (FP.tryFromF64 cfg f : Res ConvErr (FP L P)) = .err ⟨"too big number"⟩) := by
  obtain ⟨r, hr, h1, h2⟩ := C104_outcome (L := L) cfg hn hn' hkP hP hd hf
  have hr' : r = n * 10 ^ (P - k) := by
    rcases hr with hr | ⟨i, i1, i2, i3, -⟩
    · exact hr
    · exact absurd (hl i i1 i2) (not_le.2 i3)
  subst hr'
  push_cast at h1 h2
  refine ⟨fun h => ?_, h2⟩
  obtain ⟨x, x1, x2⟩ := h1 h
  refine ⟨x, x1, ?_⟩
  have e : (10 : ℚ) ^ P = 10 ^ k * 10 ^ (P - k) := by
    rw [← pow_add]
    congr 1
    omega
  have e2 : (n : ℚ) * 10 ^ (P - k) / 10 ^ P = |d| := by
    rw [hd, e]
    field_simp
  rw [x2, mul_div_assoc, e2]
  by_cases hc : d < 0
  · rw [if_pos hc, abs_of_neg hc]; ring
  · rw [if_neg hc, abs_of_nonneg (not_lt.1 hc)]; ring

example := C104_literal_partial (L := .i64) (P := 9) debugCfg (n := 1) (k := 1) (by decide) (by norm_num)
  (by decide) (by decide) (d := -1 / 10) (by decide +kernel) (C46_model_rounding (by decide +kernel))
  (fun i hi h => absurd h (by
    have : 10 ^ i ≤ 10 ^ 8 := Nat.pow_le_pow_right (by decide) (by omega)
    omega))

/-- C104: the `f64` nearest to a fixed-point number is converted to that number if its raw value is at
most `4·10^15`; `MIN` excepted. -/
theorem C104_back (cfg : Cfg) (hP : P ≤ 38) (a : FP L P) (hr : |value a * 10 ^ P| ≤ 4 * 10 ^ 15)
    (hm : value a ≠ minValue L P) (f : BitVec 64) (hf : f64Nearest f (value a)) :
    FP.tryFromF64 cfg f = .ok a := by
  have hp : (0 : ℚ) < 10 ^ P := by positivity
  have hva : value a * 10 ^ P = a.inner.toInt := by
    rw [value_raw]
    push_cast
    field_simp
  by_cases h0 : value a = 0
  · rw [h0] at hf
    have h1 := hf.2.2.1 0 (by decide)
    rw [f64Value_zero, sub_self, abs_zero, sub_zero] at h1
    obtain ⟨x, x1, x2⟩ := (C103_rest (L := L) (P := P) cfg f).1 hf.1 (abs_nonpos_iff.1 h1)
    rw [x1, value_inj (x2.trans h0.symm)]
  · have hraw0 : a.inner.toInt ≠ 0 := by
      intro hc
      rw [hc] at hva
      apply h0
      have : value a * 10 ^ P = 0 := by rw [hva]; simp
      rcases mul_eq_zero.1 this with h | h
      · exact h
      · exact absurd h hp.ne'
    have hn : (a.inner.toInt).natAbs ≤ 4 * 10 ^ 15 := by
      rw [hva] at hr
      have h1 : |a.inner.toInt| ≤ 4 * 10 ^ 15 := by exact_mod_cast hr
      have h2 : ((a.inner.toInt.natAbs : Nat) : Int) = |a.inner.toInt| := Int.natCast_natAbs _
      omega
    have hd : |value a| = ((a.inner.toInt).natAbs : ℚ) / 10 ^ P := by
      rw [value_raw, abs_div, Nat.cast_natAbs]
      push_cast
      rw [abs_of_pos hp]
    obtain ⟨h1, -⟩ := C104_literal_partial (L := L) cfg (by omega) (by omega) (le_refl P) hP hd hf (by
      intro i hi h
      have : i = 0 := by omega
      rw [this] at h
      omega)
    obtain ⟨x, x1, x2⟩ := h1 (by
      rw [Nat.sub_self, pow_zero, mul_one]
      have hf' : Fits L.bits a.inner.toInt := toInt_fits _
      rw [fits_half] at hf'
      rw [rawMax_half]
      have hne : a.inner.toInt ≠ -half L := by
        intro hc
        apply hm
        unfold value minValue
        rw [hc]
        rfl
      omega)
    rw [x1, value_inj x2]

example := C104_back (L := .i64) (P := 9) debugCfg (by decide) ⟨3999999999999999⟩ (by decide +kernel)
  (by decide +kernel) _ (C46_model_rounding (by decide +kernel))

/-- C104, the restriction is necessary: of the `f64` nearest to 4096.029 the conversion to 12 or more
digits makes 4096.029000000001; and 4.46e-16, three significant digits, is taken for
4.460000000000001e-16. -/
theorem C104_literal_false :
    f64Nearest 0x40B000076C8B4396 (4096029 / 1000) ∧
    (FP.tryFromF64 debugCfg 0x40B000076C8B4396 : Res ConvErr (FP .i64 12)) =
      .ok ⟨4096029000000001⟩ ∧
    (FP.tryFromF64 debugCfg 0x40B000076C8B4396 : Res ConvErr (FP .i128 18)) =
      .ok ⟨4096029000000001000000⟩ ∧
    f64Nearest 0x3CC0119FB9C628F3 (446 / 1000000000000000000) ∧
    (FP.tryFromF64 debugCfg 0x3CC0119FB9C628F3 : Res ConvErr (FP .i128 38)) =
      .ok ⟨44600000000000010000000⟩ := by
  refine ⟨?_, by decide +kernel, by decide +kernel, ?_, by decide +kernel⟩
  · have h := C46_model_rounding (v := 4096029 / 1000) (by
      rw [abs_of_pos (by norm_num)]
      exact lt_trans (b := (2 : ℚ) ^ 20) (by norm_num) (pow_lt_pow_right₀ (by norm_num) (by norm_num)))
    rwa [show F64.ofRat (4096029 / 1000) = 0x40B000076C8B4396 by decide +kernel] at h
  · have h := C46_model_rounding (v := 446 / 1000000000000000000) (by
      rw [abs_of_pos (by norm_num)]
      exact lt_trans (b := (2 : ℚ) ^ 20) (by norm_num) (pow_lt_pow_right₀ (by norm_num) (by norm_num)))
    rwa [show F64.ofRat (446 / 1000000000000000000) = 0x3CC0119FB9C628F3 by decide +kernel] at h

-- 123.456 and -0.1 meet the hypotheses at 18 digits; 4096.029 does at 9 digits, but not at 12
example :
    (∀ i, 3 + i ≤ 18 → 4 * 10 ^ 15 < 123456 * 10 ^ i → 2 ^ 52 ≤ 123456 * 10 ^ i) ∧
    (∀ i, 1 + i ≤ 18 → 4 * 10 ^ 15 < 1 * 10 ^ i → 2 ^ 52 ≤ 1 * 10 ^ i) ∧
    |(-1 / 10 : ℚ)| = (1 : Nat) / 10 ^ 1 ∧ f64Nearest (F64.ofRat (-1 / 10)) (-1 / 10) ∧
    (FP.tryFromF64 debugCfg (F64.ofRat (-1 / 10)) : Res ConvErr (FP .i128 18)) =
      .ok ⟨BitVec.ofInt 128 (-100000000000000000)⟩ ∧
    (∀ i, 3 + i ≤ 9 → 4 * 10 ^ 15 < 4096029 * 10 ^ i → 2 ^ 52 ≤ 4096029 * 10 ^ i) ∧
    (FP.tryFromF64 debugCfg 0x40B000076C8B4396 : Res ConvErr (FP .i64 9)) = .ok ⟨4096029000000⟩ ∧
    ¬ (∀ i, 3 + i ≤ 12 → 4 * 10 ^ 15 < 4096029 * 10 ^ i → 2 ^ 52 ≤ 4096029 * 10 ^ i) := by
  have key : ∀ n k p : Nat, (∀ i : Fin (p + 1), k + i.val ≤ p → 4 * 10 ^ 15 < n * 10 ^ i.val →
      2 ^ 52 ≤ n * 10 ^ i.val) → ∀ i, k + i ≤ p → 4 * 10 ^ 15 < n * 10 ^ i → 2 ^ 52 ≤ n * 10 ^ i :=
    fun n k p h i hi => h ⟨i, by omega⟩ hi
  refine ⟨key _ _ _ (by decide), key _ _ _ (by decide), ?_, C46_model_rounding ?_, by decide +kernel,
    key _ _ _ (by decide), by decide +kernel, ?_⟩
  · rw [abs_of_neg (by norm_num)]; norm_num
  · rw [abs_of_neg (by norm_num)]
    exact lt_trans (b := (2 : ℚ) ^ 20) (by norm_num) (pow_lt_pow_right₀ (by norm_num) (by norm_num))
  · intro h
    exact absurd (h 9 (by norm_num) (by norm_num)) (by norm_num)

-- 3999999.999999999, raw 3999999999999999
example : |value (⟨3999999999999999⟩ : FP .i64 9) * 10 ^ 9| ≤ 4 * 10 ^ 15 ∧
    value (⟨3999999999999999⟩ : FP .i64 9) = 3999999999999999 / 1000000000 ∧
    F64.ofRat (3999999999999999 / 1000000000) = 0x414E847FFFFFFFFE ∧
    (FP.tryFromF64 debugCfg 0x414E847FFFFFFFFE : Res ConvErr (FP .i64 9)) =
      .ok ⟨3999999999999999⟩ := by
  have h : value (⟨3999999999999999⟩ : FP .i64 9) = 3999999999999999 / 1000000000 := by
    unfold value
    rw [show (⟨3999999999999999⟩ : FP .i64 9).inner.toInt = 3999999999999999 by decide]
    norm_num
  refine ⟨?_, h, by decide +kernel, by decide +kernel⟩
  rw [h, abs_of_pos (by norm_num)]
  norm_num

end Fixnum
