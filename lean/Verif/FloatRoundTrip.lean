import Verif.FloatMono
import Verif.FloatExact

/-! # Conversion to `f64` and back: sharper bounds -/

namespace Fixnum

open Res Spec F64

variable {L : Layout} {P : Nat} {ε : Type}

/-- Half a unit in the last place, below a power of two. -/
theorem ofRat_half_ulp {v : ℚ} {k : Int} (hk : -900 ≤ k) (hk' : k ≤ 200) (h : |v| ≤ 2 ^ k) :
    |f64Value (ofRat v) - v| ≤ 2 ^ (k - 54) := by
  have hbig : |v| < 2 ^ 1023 := by
    refine lt_of_le_of_lt (h.trans ?_) big_lt
    rw [← zpow_natCast]
    exact zpow_le_zpow_right₀ (by norm_num) (by exact_mod_cast hk')
  have hp : (0 : ℚ) < 2 ^ (k - 54) := by positivity
  rcases h.eq_or_lt with h | h
  · rw [ofRat_repr hbig (m := 1) (x := k) (by norm_num) (by omega) (by rw [h]; simp), sub_self,
      abs_zero]
    exact hp.le
  by_cases h0 : v = 0
  · subst h0
    rw [ofRat_zero, f64Value_zero]
    simpa using hp.le
  obtain ⟨e, q, hr, f1, f2, f3, f4⟩ := ofRat_form h0 hbig
  have hpe : (0 : ℚ) < 2 ^ e := by positivity
  have hek : e ≤ k - 53 := by
    rcases hr.ge with h1 | h1
    · omega
    · rw [le_div_iff₀ hpe] at h1
      have h2 : (2 : ℚ) ^ (52 + e) < 2 ^ k := by
        rw [zpow_add₀ (by norm_num), show (2 : ℚ) ^ (52 : Int) = 2 ^ 52 by norm_num]
        exact lt_of_le_of_lt h1 h
      have := (zpow_lt_zpow_iff_right₀ (show (1 : ℚ) < 2 by norm_num)).1 h2
      omega
  have hval : |f64Value (ofRat v) - v| = |(q : ℚ) * 2 ^ e - abs v| := by
    unfold f64Value
    rw [f2]
    by_cases hn : v < 0
    · rw [if_pos (f4.2 hn), abs_of_neg hn, ← abs_neg]
      congr 1
      ring
    · rw [if_neg (fun hc => hn (f4.1 hc)), abs_of_nonneg (not_lt.1 hn)]
  rw [hval]
  have h1 : (q : ℚ) * 2 ^ e - abs v = (q - abs v / 2 ^ e) * 2 ^ e := by field_simp
  rw [h1, abs_mul, abs_of_pos hpe]
  calc |(q : ℚ) - abs v / 2 ^ e| * 2 ^ e ≤ 1 / 2 * 2 ^ e :=
        mul_le_mul_of_nonneg_right hr.near hpe.le
    _ ≤ 1 / 2 * 2 ^ (k - 53) :=
        mul_le_mul_of_nonneg_left (zpow_le_zpow_right₀ (by norm_num) hek) (by norm_num)
    _ = 2 ^ (k - 54) := by
        rw [show k - 53 = (k - 54) + 1 by ring, zpow_add_one₀ (by norm_num)]
        ring

theorem window_table : ∀ (P : Fin 16) (e : Fin 52), 10 ^ P.val * 2 ^ e.val < 4 * 10 ^ 15 →
    9 * (10 ^ P.val * (2 * 2 ^ e.val + 1)) < 4 * 2 ^ 54 := by decide +kernel

/-- With an integral part: the error is less than `4/9` raw units. -/
theorem core_window_int {n : Int} (h0 : 10 ^ P ≤ n) (h : n < 4 * 10 ^ 15) :
    |f64Value (f64Core n (10 ^ P)) * 10 ^ P - n| < 4 / 9 := by
  have hP : P < 16 := by
    by_contra hc
    have : (10 : Int) ^ 16 ≤ 10 ^ P := pow_le_pow_right₀ (by norm_num) (by omega)
    omega
  have hc : (0 : Int) < 10 ^ P := by positivity
  obtain ⟨i, hi⟩ : ∃ i, i = n.tdiv (10 ^ P) := ⟨_, rfl⟩
  obtain ⟨r, hr⟩ : ∃ r, r = n.tmod (10 ^ P) := ⟨_, rfl⟩
  have hdm : 10 ^ P * i + r = n := by rw [hi, hr]; exact Int.mul_tdiv_add_tmod n _
  have hr0 : 0 ≤ r := by rw [hr]; exact Int.tmod_nonneg _ (by omega)
  have hr1 : r < 10 ^ P := by rw [hr]; exact Int.tmod_lt_of_pos _ hc
  have hi1 : 1 ≤ i := by
    by_contra hn
    have : 10 ^ P * i ≤ 0 := mul_nonpos_of_nonneg_of_nonpos hc.le (by omega)
    omega
  have hin : i ≤ n := by nlinarith
  have hin2 : 10 ^ P * i ≤ n := by omega
  -- the conversions of the parts are exact
  have e1 : f64Value (ofInt i) = i := ofInt_exact (by rw [abs_of_nonneg (by omega)]; norm_num; omega)
  have e2 : f64Value (ofInt r) = r := ofInt_exact (by rw [abs_of_nonneg hr0]; norm_num; omega)
  have e3 : f64Value (ofInt (10 ^ P)) = 10 ^ P := ofInt_ten_pow (by omega)
  have hcq : (0 : ℚ) < 10 ^ P := by positivity
  have hrq0 : (0 : ℚ) ≤ r := by exact_mod_cast hr0
  have hrq1 : (r : ℚ) ≤ 10 ^ P := by exact_mod_cast hr1.le
  have hv0 : (0 : ℚ) ≤ r / 10 ^ P := by positivity
  have hv1 : (r : ℚ) / 10 ^ P ≤ 1 := by rw [div_le_one hcq]; exact hrq1
  obtain ⟨D, hD⟩ : ∃ D, D = f64Value (F64.div (ofInt r) (ofInt (10 ^ P))) := ⟨_, rfl⟩
  have hD' : D = f64Value (ofRat (r / 10 ^ P)) := by
    rw [hD]
    unfold F64.div
    rw [toRat_eq, toRat_eq, e2, e3]
  have d1 : |D - r / 10 ^ P| ≤ 1 / 2 ^ 54 := by
    rw [hD']
    have := ofRat_half_ulp (v := (r : ℚ) / 10 ^ P) (k := 0) (by norm_num) (by norm_num)
      (by rw [abs_of_nonneg hv0]; simpa using hv1)
    refine this.trans (le_of_eq ?_)
    norm_num
  have h200 : |(r : ℚ) / 10 ^ P| ≤ 2 ^ 200 := by
    rw [abs_of_nonneg hv0]
    exact hv1.trans (one_le_pow₀ (by norm_num))
  have d2 : 0 ≤ D := by rw [hD']; exact R_nonneg h200 hv0
  have d3 : D ≤ 1 := by
    rw [hD']
    have := R_le_pow (v := (r : ℚ) / 10 ^ P) (n := 0) (by norm_num) h200 (by simpa using hv1)
    simpa using this
  obtain ⟨m, hm⟩ : ∃ m : Nat, i = m := ⟨i.toNat, by omega⟩
  have hm0 : m ≠ 0 := by omega
  obtain ⟨e, he⟩ : ∃ e, e = Nat.log2 m := ⟨_, rfl⟩
  have l1 : 2 ^ e ≤ m := by rw [he]; exact Nat.log2_self_le hm0
  have l2 : m < 2 ^ (e + 1) := by rw [he]; exact Nat.lt_log2_self
  have he52 : e < 52 := by
    have : 2 ^ e < 2 ^ 52 := by
      have : (2 : Nat) ^ 52 = 4503599627370496 := by norm_num
      omega
    exact (Nat.pow_lt_pow_iff_right (by norm_num)).1 this
  have s1 : (i : ℚ) + D ≤ 2 ^ (e + 1) := by
    have : (m : ℚ) + 1 ≤ 2 ^ (e + 1) := by exact_mod_cast l2
    rw [hm]
    push_cast
    linarith
  have s0 : 0 ≤ (i : ℚ) + D := by
    have : (1 : ℚ) ≤ i := by exact_mod_cast hi1
    linarith
  have hcore : f64Value (f64Core n (10 ^ P)) = f64Value (ofRat (i + D)) := by
    unfold f64Core F64.add
    rw [toRat_eq, toRat_eq, ← hi, ← hr, e1, ← hD]
  have d4 : |f64Value (f64Core n (10 ^ P)) - (i + D)| ≤ 2 ^ e / 2 ^ 53 := by
    rw [hcore]
    have := ofRat_half_ulp (v := (i : ℚ) + D) (k := (e : Int) + 1) (by omega) (by omega) (by
      rw [abs_of_nonneg s0]
      have : (2 : ℚ) ^ ((e : Int) + 1) = 2 ^ (e + 1) := by exact_mod_cast zpow_natCast (2 : ℚ) (e + 1)
      rw [this]
      exact s1)
    refine this.trans (le_of_eq ?_)
    rw [show (e : Int) + 1 - 54 = e - 53 by ring, zpow_sub₀ (by norm_num), zpow_natCast]
    norm_num
  have hnq : (n : ℚ) = 10 ^ P * i + r := by exact_mod_cast hdm.symm
  have hsplit : f64Value (f64Core n (10 ^ P)) * 10 ^ P - n =
      ((f64Value (f64Core n (10 ^ P)) - (i + D)) + (D - r / 10 ^ P)) * 10 ^ P := by
    rw [hnq]
    field_simp
    ring
  have htab := window_table ⟨P, hP⟩ ⟨e, he52⟩ (by
    dsimp only
    have h1 : 10 ^ P * 2 ^ e ≤ 10 ^ P * m := Nat.mul_le_mul_left _ l1
    have h2 : ((10 ^ P * m : Nat) : Int) ≤ n := by push_cast; rw [← hm]; exact hin2
    have h3 : ((10 ^ P * m : Nat) : Int) < 4 * 10 ^ 15 := by omega
    have h4 : 10 ^ P * m < 4 * 10 ^ 15 := by exact_mod_cast h3
    omega)
  dsimp only at htab
  have htabq : (9 : ℚ) * (10 ^ P * (2 * 2 ^ e + 1)) < 4 * 2 ^ 54 := by exact_mod_cast htab
  rw [hsplit, abs_mul, abs_of_pos hcq]
  calc |f64Value (f64Core n (10 ^ P)) - (i + D) + (D - r / 10 ^ P)| * 10 ^ P
      ≤ (2 ^ e / 2 ^ 53 + 1 / 2 ^ 54) * 10 ^ P :=
        mul_le_mul_of_nonneg_right ((abs_add_le _ _).trans (add_le_add d4 d1)) hcq.le
    _ < 4 / 9 := by
        generalize (10 : ℚ) ^ P = c at *
        generalize (2 : ℚ) ^ e = w at *
        rw [show (2 : ℚ) ^ 54 = 2 * 2 ^ 53 by norm_num] at *
        generalize hz : (2 : ℚ) ^ 53 = z at *
        have hz0 : 0 < z := by rw [← hz]; positivity
        have : (w / z + 1 / (2 * z)) * c = (c * (2 * w + 1)) / (2 * z) := by field_simp
        rw [this, div_lt_iff₀ (by positivity)]
        linarith

theorem tenPow_table : ∀ P : Fin 39,
    |toRat (ofInt (10 ^ P.val)) - 10 ^ P.val| * 2 ^ 53 ≤ 8161 / 10000 * 10 ^ P.val := by
  decide +kernel

/-- Without an integral part: likewise, with smaller bounds where `10^P` is not a `f64`. -/
theorem core_window_frac {n : Int} (h0 : 0 ≤ n) (h1 : n < 10 ^ P) (hP : P ≤ 38)
    (h : n ≤ 22 * 10 ^ 14 ∨ (P ≤ 22 ∧ n < 4 * 10 ^ 15)) :
    |f64Value (f64Core n (10 ^ P)) * 10 ^ P - n| < 4 / 9 := by
  have hc : (0 : Int) < 10 ^ P := by positivity
  have hcq : (0 : ℚ) < 10 ^ P := by positivity
  have hc' : (10 : Int) ^ P ≤ 2 ^ 127 :=
    le_trans (pow_le_pow_right₀ (by norm_num) hP) (by norm_num)
  have hi : n.tdiv (10 ^ P) = 0 := Int.tdiv_eq_zero_of_lt h0 h1
  have hr : n.tmod (10 ^ P) = n := Int.tmod_eq_of_lt h0 h1
  have hnq : (0 : ℚ) ≤ n := by exact_mod_cast h0
  have hu := unitErr_pos
  have hex : f64Value (ofInt n) = n := ofInt_exact (by rw [abs_of_nonneg h0]; norm_num; omega)
  have key : ∀ γ : ℚ, 0 ≤ γ → γ ≤ unitErr →
      |f64Value (ofInt (10 ^ P)) - 10 ^ P| ≤ γ * 10 ^ P →
      |f64Value (f64Core n (10 ^ P)) * 10 ^ P - n| ≤ (γ + unitErr + 8 * unitErr ^ 2) * n := by
    intro γ hγ0 hγ hg
    have := core_err_zero (z := n) (c := 10 ^ P) hc hc' (β := 0) (γ := γ) (le_refl _) hγ0 hu.le hγ hi
      (by rw [hr, hex]; simp) (by push_cast; rw [abs_of_pos hcq]; exact hg)
    push_cast at this
    rw [abs_of_nonneg (show (0 : ℚ) ≤ n / 10 ^ P by positivity), zero_add] at this
    have h2 := mul_le_mul_of_nonneg_right this hcq.le
    rw [mul_assoc, div_mul_cancel₀ _ hcq.ne', ← abs_of_pos hcq, ← abs_mul, sub_mul,
      abs_of_pos hcq, div_mul_cancel₀ _ hcq.ne'] at h2
    exact h2
  rcases Nat.lt_or_ge 22 P with hP2 | hP2
  · have hn : n ≤ 22 * 10 ^ 14 := by
      rcases h with h | h
      · exact h
      · omega
    have hnq2 : (n : ℚ) ≤ 22 * 10 ^ 14 := by exact_mod_cast hn
    have ht := tenPow_table ⟨P, by omega⟩
    dsimp only at ht
    rw [toRat_eq] at ht
    have := key (8161 / 10000 * unitErr) (by positivity) (by linarith) (by
      unfold unitErr
      rw [← le_div_iff₀ (by positivity)] at ht
      refine ht.trans (le_of_eq ?_)
      ring)
    refine lt_of_le_of_lt (this.trans (mul_le_mul_of_nonneg_left hnq2 (by positivity))) ?_
    unfold unitErr
    norm_num
  · have hnq2 : (n : ℚ) ≤ 4 * 10 ^ 15 := by
      have : n ≤ 4 * 10 ^ 15 := by
        rcases h with h | h <;> omega
      exact_mod_cast this
    have := key 0 (le_refl _) hu.le (by rw [ofInt_ten_pow hP2]; simp)
    refine lt_of_le_of_lt (this.trans (mul_le_mul_of_nonneg_left hnq2 (by positivity))) ?_
    unfold unitErr
    norm_num

theorem core_window {z : Int} (hP : P ≤ 38)
    (h : |z| ≤ 22 * 10 ^ 14 ∨ (P ≤ 22 ∧ |z| < 4 * 10 ^ 15)) :
    |(abs (f64Value (f64Core z (10 ^ P))) * 10 ^ P - abs (z : ℚ))| < 4 / 9 := by
  have hz : |f64Value (f64Core z (10 ^ P))| = |f64Value (f64Core |z| (10 ^ P))| := by
    rcases abs_choice z with h | h
    · rw [h]
    · rw [h, core_neg, abs_neg]
  have hcq : (0 : ℚ) < 10 ^ P := by positivity
  have key : |f64Value (f64Core |z| (10 ^ P)) * 10 ^ P - (|z| : Int)| < 4 / 9 := by
    rcases lt_or_ge |z| (10 ^ P) with h1 | h1
    · exact core_window_frac (abs_nonneg _) h1 hP h
    · refine core_window_int h1 ?_
      rcases h with h | h <;> omega
  rw [hz]
  refine lt_of_le_of_lt ?_ key
  have h2 := abs_abs_sub_abs_le_abs_sub (f64Value (f64Core |z| (10 ^ P)) * 10 ^ P) ((|z| : Int) : ℚ)
  rw [abs_mul, abs_of_pos hcq] at h2
  push_cast at h2 ⊢
  rw [abs_abs] at h2
  exact h2

/-- A number with 16 digits is recovered from a `f64` within `4/9` of its last place. -/
theorem recover (cfg : Cfg) {f : BitVec 64} (hf : f64Finite f) (hP : P ≤ 10 ^ 9) {n : Nat}
    (h1 : 10 ^ 15 ≤ n) (h2 : n < 2 ^ 52)
    (h : |(f64Magnitude f * 10 ^ P - n)| < 4 / 9) :
    (FP.tryFromF64 cfg f : Res ConvErr (FP L P)) = finish L P (decide (f64Negative f)) n := by
  have hp : (0 : ℚ) < 10 ^ P := by positivity
  have h1q : (10 : ℚ) ^ 15 ≤ n := by exact_mod_cast h1
  have h2q : (n : ℚ) + 1 ≤ 2 ^ 52 := by exact_mod_cast h2
  rw [abs_lt] at h
  have hb : f64Bits f ≠ 0 := by
    intro hc
    rw [f64Bits_zero_iff] at hc
    rw [hc, zero_mul] at h
    linarith
  obtain ⟨r, ⟨y, t, a1, a2, -, ⟨g, g1, g2, g3, rfl⟩, a4⟩, hr⟩ :=
    tryFromF64_exact (P := P) cfg L f hf hb hP
  have hY : y * 10 ^ P ≤ f64Magnitude f * 10 ^ P := mul_le_mul_of_nonneg_right a1 hp.le
  have hY' : f64Magnitude f * 10 ^ P - 1 / 10 ^ 15 ≤ y * 10 ^ P := by
    have h3 := mul_le_mul_of_nonneg_right a2 hp.le
    have h4 := tiny_lt
    have h5 : f64Magnitude f * 10 ^ P * tiny ≤ 2 ^ 52 * (1 / 10 ^ 34) :=
      mul_le_mul (by linarith) h4.le (by unfold tiny; have := stepErr_pos; positivity) (by positivity)
    have h6 : (2 : ℚ) ^ 52 * (1 / 10 ^ 34) ≤ 1 / 10 ^ 15 := by norm_num
    nlinarith
  have hylt : y * 10 ^ P < 2 ^ 52 := by linarith
  have hygt : (2 : ℚ) ^ 52 / 10 ≤ y * 10 ^ P := by
    have : (2 : ℚ) ^ 52 / 10 + 1 ≤ 10 ^ 15 := by norm_num
    linarith
  have hz : ∀ k : Int, (10 : ℚ) ^ k * 10 ^ P = 10 ^ (k + P) := by
    intro k
    rw [zpow_add₀ (by norm_num), zpow_natCast]
  have hg : g = -(P : Int) := by
    have u1 : g + P ≤ 0 := by
      have h3 := mul_le_mul_of_nonneg_right g3 hp.le
      rw [mul_assoc, hz] at h3
      have h4 : (2 : ℚ) ^ 52 * 10 ^ (g - 1 + P) < 2 ^ 52 * 10 ^ (0 : Int) := by
        rw [zpow_zero, mul_one]; linarith
      have h5 := lt_of_mul_lt_mul_left h4 (by positivity)
      have := (zpow_lt_zpow_iff_right₀ (show (1 : ℚ) < 10 by norm_num)).1 h5
      omega
    rcases g2 with h3 | h3
    · omega
    · have h4 := mul_lt_mul_of_pos_right h3 hp
      rw [mul_assoc, hz] at h4
      have h5 : (2 : ℚ) ^ 52 * 10 ^ (-1 : Int) < 2 ^ 52 * 10 ^ (g + P) := by
        refine lt_of_le_of_lt ?_ h4
        rw [show (10 : ℚ) ^ (-1 : Int) = 1 / 10 by norm_num]
        linarith
      have h5 := lt_of_mul_lt_mul_left h5 (by positivity)
      have := (zpow_lt_zpow_iff_right₀ (show (1 : ℚ) < 10 by norm_num)).1 h5
      omega
  have hround : round49 (y / 10 ^ g) = n := by
    rw [hg, zpow_neg, div_inv_eq_mul, zpow_natCast]
    refine round49_eq ?_ ?_
    · linarith
    · have : (1 : ℚ) / 10 ^ 15 ≤ 1 / 10 := by norm_num
      linarith
  have hrn : r = n := by
    rw [hround, hg, zpow_neg, zpow_natCast, mul_assoc, inv_mul_cancel₀ hp.ne', mul_one,
      round49_int] at a4
    exact_mod_cast a4
  rw [hr, hrn]

end Fixnum
