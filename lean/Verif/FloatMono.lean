import Verif.FloatOpsBasic
import Verif.Props.ToFloat

/-! # Lemmas: rounding to `f64` is monotone, and so is the conversion of fixed-point numbers -/

namespace Fixnum

open Res Spec F64

variable {L : Layout} {P : Nat} {ε : Type}

theorem ofRat_mono {v w : ℚ} (hv : |v| < 2 ^ 1023) (hw : |w| < 2 ^ 1023) (h : v ≤ w) :
    f64Value (ofRat v) ≤ f64Value (ofRat w) := by
  obtain ⟨fv, -, nv, -⟩ := ofRat_nearest hv
  obtain ⟨fw, -, nw, -⟩ := ofRat_nearest hw
  rcases h.eq_or_lt with h | h
  · rw [h]
  · have h1 := nv (ofRat w) fw
    have h2 := nw (ofRat v) fv
    generalize f64Value (ofRat v) = a at *
    generalize f64Value (ofRat w) = b at *
    by_contra hc
    rw [not_le] at hc
    have h3 := sq_le_sq.2 h1
    have h4 := sq_le_sq.2 h2
    have h5 : (a - b) * (a + b - 2 * v) ≤ 0 := by nlinarith
    have h6 : (a - b) * (a + b - 2 * w) ≥ 0 := by nlinarith
    have h7 : a + b - 2 * v ≤ 0 := by
      by_contra hx
      rw [not_le] at hx
      have := mul_pos (sub_pos.2 hc) hx
      linarith
    have h8 : 0 ≤ a + b - 2 * w := by
      by_contra hx
      rw [not_le] at hx
      have := mul_neg_of_pos_of_neg (sub_pos.2 hc) hx
      linarith
    linarith

theorem big_lt : (2 : ℚ) ^ 200 < 2 ^ 1023 := pow_lt_pow_right₀ (by norm_num) (by norm_num)

theorem ofRat_two_pow {n : Nat} (h : n ≤ 200) : f64Value (ofRat (2 ^ n)) = 2 ^ n := by
  refine ofRat_repr ?_ (m := 1) (x := n) (by norm_num) (by omega) ?_
  · rw [abs_of_pos (by positivity)]
    exact pow_lt_pow_right₀ (by norm_num) (by omega)
  · rw [abs_of_pos (by positivity), zpow_natCast]; push_cast; ring

/-- Monotonicity for the sizes that occur. -/
theorem R_mono {v w : ℚ} (hv : |v| ≤ 2 ^ 200) (hw : |w| ≤ 2 ^ 200) (h : v ≤ w) :
    f64Value (ofRat v) ≤ f64Value (ofRat w) :=
  ofRat_mono (lt_of_le_of_lt hv big_lt) (lt_of_le_of_lt hw big_lt) h

theorem R_nonneg {v : ℚ} (hv : |v| ≤ 2 ^ 200) (h : 0 ≤ v) : 0 ≤ f64Value (ofRat v) := by
  have := R_mono (v := 0) (w := v) (by simp) hv h
  rwa [ofRat_zero, f64Value_zero] at this

theorem R_le_pow {v : ℚ} {n : Nat} (hn : n ≤ 200) (hv : |v| ≤ 2 ^ 200) (h : v ≤ 2 ^ n) :
    f64Value (ofRat v) ≤ 2 ^ n := by
  have := R_mono hv (w := 2 ^ n) (by
    rw [abs_of_pos (by positivity)]
    exact pow_le_pow_right₀ (by norm_num) hn) h
  rwa [ofRat_two_pow hn] at this

/-- A `f64` in `[2^53, 2^54)` is twice an integer with the parity of the mantissa. -/
theorem f64_parity {g : BitVec 64} {k : Int} (h1 : (2 : ℚ) ^ 53 ≤ f64Value g)
    (h2 : f64Value g < 2 ^ 54) (hk : f64Value g = 2 * k) : k % 2 = f64Mantissa g % 2 := by
  have hm : f64Mantissa g < 2 ^ 52 := Nat.mod_lt _ (by norm_num)
  have hmq : (f64Mantissa g : ℚ) < 2 ^ 52 := by exact_mod_cast hm
  have hm0 : (0 : ℚ) ≤ f64Mantissa g := by positivity
  have hneg : ¬ f64Negative g := by
    intro hn
    have := f64Magnitude_nonneg g
    unfold f64Value at h1
    rw [if_pos hn] at h1
    have : (0 : ℚ) < 2 ^ 53 := by positivity
    linarith
  unfold f64Value at h1 h2 hk
  rw [if_neg hneg] at h1 h2 hk
  unfold f64Magnitude at h1 h2 hk
  split at h1
  · exfalso
    have h3 : (f64Mantissa g : ℚ) * 2 ^ (-1074 : ℤ) ≤ 2 ^ 52 * 1 := by
      gcongr
      exact zpow_le_one_of_nonpos₀ (by norm_num) (by norm_num)
    have h4 : (2 : ℚ) ^ 52 * 1 < 2 ^ 53 := by norm_num
    linarith
  · rename_i he
    rw [if_neg he] at h2 hk
    obtain ⟨x, hx⟩ : ∃ x : ℤ, x = (f64Exponent g : ℤ) - 1075 := ⟨_, rfl⟩
    rw [← hx] at h1 h2 hk
    have hx1 : x = 1 := by
      have hA : 0 < x := by
        by_contra hc
        have h3 : ((2 : ℚ) ^ 52 + f64Mantissa g) * 2 ^ x ≤ (2 ^ 52 + f64Mantissa g) * 1 := by
          gcongr
          exact zpow_le_one_of_nonpos₀ (by norm_num) (by omega)
        have h4 : (2 : ℚ) ^ 53 = 2 ^ 52 + 2 ^ 52 := by norm_num
        linarith
      have hB : x < 2 := by
        by_contra hc
        have h3 : (2 : ℚ) ^ 52 * 2 ^ (2 : ℤ) ≤ (2 ^ 52 + f64Mantissa g) * 2 ^ x := by
          gcongr
          · linarith
          · norm_num
          · omega
        have h4 : (2 : ℚ) ^ 52 * 2 ^ (2 : ℤ) = 2 ^ 54 := by norm_num
        linarith
      omega
    rw [hx1, zpow_one] at hk
    have h3 : (2 : ℚ) ^ 52 + f64Mantissa g = k := by linarith
    have h4 : (2 : ℤ) ^ 52 + f64Mantissa g = k := by exact_mod_cast h3
    omega

/-- A `f64` not below `2^(52+j)` is a multiple of `2^j`. -/
theorem f64_multiple {g : BitVec 64} (j : Nat) (h1 : (2 : ℚ) ^ (52 + j) ≤ f64Value g) :
    ∃ k : Int, f64Value g = 2 ^ j * k := by
  have hm : f64Mantissa g < 2 ^ 52 := Nat.mod_lt _ (by norm_num)
  have hmq : (f64Mantissa g : ℚ) < 2 ^ 52 := by exact_mod_cast hm
  have hm0 : (0 : ℚ) ≤ f64Mantissa g := by positivity
  have hneg : ¬ f64Negative g := by
    intro hn
    have := f64Magnitude_nonneg g
    unfold f64Value at h1
    rw [if_pos hn] at h1
    have : (0 : ℚ) < 2 ^ (52 + j) := by positivity
    linarith
  unfold f64Value at h1 ⊢
  rw [if_neg hneg] at h1 ⊢
  unfold f64Magnitude at h1 ⊢
  have hj : (1 : ℚ) ≤ 2 ^ j := one_le_pow₀ (by norm_num)
  split at h1
  · exfalso
    have h3 : (f64Mantissa g : ℚ) * 2 ^ (-1074 : ℤ) ≤ f64Mantissa g * 1 := by
      gcongr
      exact zpow_le_one_of_nonpos₀ (by norm_num) (by norm_num)
    rw [pow_add] at h1
    nlinarith
  · rename_i he
    rw [if_neg he]
    obtain ⟨x, hx⟩ : ∃ x : ℤ, x = (f64Exponent g : ℤ) - 1075 := ⟨_, rfl⟩
    rw [← hx] at h1 ⊢
    have hx1 : (j : ℤ) ≤ x := by
      by_contra hc
      have h3 : ((2 : ℚ) ^ 52 + f64Mantissa g) * 2 ^ x ≤
          (2 ^ 52 + f64Mantissa g) * 2 ^ ((j : ℤ) - 1) := by
        gcongr
        · norm_num
        · omega
      have h4 : (2 : ℚ) ^ ((j : ℤ) - 1) * 2 = 2 ^ j := by
        rw [← zpow_add_one₀ (by norm_num), sub_add_cancel, zpow_natCast]
      rw [pow_add] at h1
      have h5 : (0 : ℚ) < 2 ^ ((j : ℤ) - 1) := by positivity
      nlinarith
    obtain ⟨d, hd⟩ : ∃ d : Nat, x = j + d := ⟨(x - j).toNat, by omega⟩
    refine ⟨(2 ^ 52 + f64Mantissa g) * 2 ^ d, ?_⟩
    rw [hd, zpow_add₀ (by norm_num), zpow_natCast, zpow_natCast]
    push_cast
    ring

theorem R_int_bound {i : Int} (h : |i| ≤ 2 ^ 127) : |(i : ℚ)| ≤ 2 ^ 200 := by
  have : (|i| : ℚ) ≤ 2 ^ 127 := by exact_mod_cast h
  exact le_trans this (pow_le_pow_right₀ (by norm_num) (by norm_num))

/-- Adding one to a rounded integer does not go beyond the next rounded integer. -/
theorem R_succ {i : Int} (h0 : 0 ≤ i) (h : i < 2 ^ 127) :
    f64Value (ofRat (f64Value (ofInt i) + 1)) ≤ f64Value (ofInt (i + 1)) := by
  by_cases hs : i < 2 ^ 53
  · rw [ofInt_exact (by rw [abs_of_nonneg h0]; exact hs.le)]
    unfold ofInt
    push_cast
    exact le_rfl
  rw [not_lt] at hs
  have hib : |(i : ℚ)| ≤ 2 ^ 200 := R_int_bound (by rw [abs_of_nonneg h0]; exact h.le)
  have hi1 : |((i + 1 : Int) : ℚ)| ≤ 2 ^ 200 := R_int_bound (by rw [abs_of_nonneg (by omega)]; omega)
  obtain ⟨a, ha⟩ : ∃ a, a = f64Value (ofInt i) := ⟨_, rfl⟩
  have ha0 : 0 ≤ a := by rw [ha]; exact R_nonneg hib (by exact_mod_cast h0)
  have haU : a ≤ 2 ^ 127 := by
    rw [ha]; exact R_le_pow (by norm_num) hib (by exact_mod_cast h.le)
  have h127 : (2 : ℚ) ^ 127 + 1 ≤ 2 ^ 200 := by norm_num
  have ha1 : |a + 1| ≤ 2 ^ 200 := by rw [abs_of_nonneg (by linarith)]; linarith
  rw [← ha]
  rcases le_or_gt a i with hle | hgt
  · unfold ofInt
    refine R_mono ha1 hi1 ?_
    push_cast
    linarith
  -- the rounding went up: one more does not round up
  have hstep : a ≤ f64Value (ofInt (i + 1)) := by
    rw [ha]; unfold ofInt
    exact R_mono hib hi1 (by push_cast; linarith)
  refine le_trans ?_ hstep
  by_contra hc
  rw [not_le] at hc
  have hi53 : (2 : ℚ) ^ 53 ≤ i := by exact_mod_cast hs
  have ha53 : (2 : ℚ) ^ (52 + 1) ≤ f64Value (ofInt i) := by rw [← ha]; norm_num; linarith
  obtain ⟨k, hk⟩ := f64_multiple 1 ha53
  have hb53 : (2 : ℚ) ^ (52 + 1) ≤ f64Value (ofRat (a + 1)) := by linarith
  obtain ⟨l, hl⟩ := f64_multiple 1 hb53
  rw [← ha, pow_one] at hk
  rw [pow_one] at hl
  have hkl : k < l := by
    have : (k : ℚ) < l := by linarith
    exact_mod_cast this
  have hkl1 : (k : ℚ) + 1 ≤ l := by exact_mod_cast hkl
  obtain ⟨-, -, hn, ht⟩ := ofRat_nearest (v := a + 1) (lt_of_le_of_lt ha1 big_lt)
  obtain ⟨fi, -, hni, hti⟩ := ofRat_nearest (v := (i : ℚ)) (lt_of_le_of_lt hib big_lt)
  have hn1 := hn (ofInt i) fi
  rw [← ha, hl, hk] at hn1
  have hlk : l = k + 1 := by
    have e1 : |2 * (k : ℚ) - (2 * k + 1)| = 1 := by
      rw [show 2 * (k : ℚ) - (2 * k + 1) = -1 by ring]; norm_num
    rw [e1, abs_le] at hn1
    have : (l : ℚ) ≤ k + 1 := by linarith [hn1.2]
    have : l ≤ k + 1 := by exact_mod_cast this
    omega
  have hlt54 : a < 2 ^ 54 := by
    by_contra hx
    rw [not_lt] at hx
    obtain ⟨k', hk'⟩ := f64_multiple (g := ofInt i) 2 (by rw [← ha]; exact hx)
    obtain ⟨l', hl'⟩ := f64_multiple (g := ofRat (a + 1)) 2 (by
      exact le_trans hx hc.le)
    rw [← ha] at hk'
    have e1 : (k : ℚ) = 2 * k' := by linarith
    have e2 : (l : ℚ) = 2 * l' := by linarith
    have e1 : k = 2 * k' := by exact_mod_cast e1
    have e2 : l = 2 * l' := by exact_mod_cast e2
    omega
  have hmb : f64Mantissa (ofRat (a + 1)) % 2 = 0 := by
    refine ht (ofInt i) fi ?_ ?_
    · rw [← ha]; exact hc.ne
    · rw [← ha, hl, hlk, hk]
      push_cast
      rw [show 2 * ((k : ℚ) + 1) - (2 * k + 1) = 1 by ring,
        show 2 * (k : ℚ) - (2 * k + 1) = -1 by ring]
      norm_num
  -- parity of `l`
  have hleven : l % 2 = 0 := by
    rcases lt_or_ge (f64Value (ofRat (a + 1))) (2 ^ 54) with hx | hx
    · have := f64_parity (by norm_num at hb53 ⊢; exact hb53) hx hl
      omega
    · obtain ⟨l', hl'⟩ := f64_multiple (g := ofRat (a + 1)) 2 hx
      have e2 : (l : ℚ) = 2 * l' := by linarith
      have e2 : l = 2 * l' := by exact_mod_cast e2
      omega
  have hkodd : k % 2 = 1 := by omega
  have hmk := f64_parity (g := ofInt i) (by norm_num at ha53 ⊢; exact ha53) (by rw [← ha]; exact hlt54)
    (by rw [← ha]; exact hk)
  -- the number two below is representable
  have hi2k : i < 2 * k := by
    have : (i : ℚ) < 2 * k := by rw [← hk]; exact hgt
    exact_mod_cast this
  have hb2 : f64Value (ofRat (2 * ((k : ℚ) - 1))) = 2 * ((k : ℚ) - 1) := by
    have hk54 : k < 2 ^ 53 := by
      have : 2 * (k : ℚ) < 2 ^ 54 := by rw [← hk]; exact hlt54
      have : 2 * k < 2 ^ 54 := by exact_mod_cast this
      omega
    have hpos : 0 ≤ k - 1 := by omega
    have hposq : (0 : ℚ) ≤ (k : ℚ) - 1 := by
      have : ((0 : Int) : ℚ) ≤ ((k - 1 : Int) : ℚ) := by exact_mod_cast hpos
      push_cast at this
      exact this
    refine ofRat_repr ?_ (m := (k - 1).toNat) (x := 1) (by omega) (by norm_num) ?_
    · rw [abs_of_nonneg (by linarith)]
      refine lt_of_le_of_lt ?_ big_lt
      have : (2 : ℚ) ^ 54 ≤ 2 ^ 200 := pow_le_pow_right₀ (by norm_num) (by norm_num)
      linarith
    · rw [abs_of_nonneg (by linarith), zpow_one]
      have : (((k - 1).toNat : Nat) : ℚ) = ((k - 1 : Int) : ℚ) := by
        rw [← Int.cast_natCast, Int.toNat_of_nonneg hpos]
      rw [this]; push_cast; ring
  have hb2f : f64Finite (ofRat (2 * ((k : ℚ) - 1))) := by
    refine (ofRat_nearest (lt_of_le_of_lt ?_ big_lt)).1
    rw [abs_le]
    have : (2 : ℚ) ^ 54 ≤ 2 ^ 200 := pow_le_pow_right₀ (by norm_num) (by norm_num)
    constructor <;> linarith
  have hnb := hni _ hb2f
  have hi2kq : (i : ℚ) < 2 * k := by exact_mod_cast hi2k
  have hieq : i = 2 * k - 1 := by
    by_contra hne
    have hle : i ≤ 2 * k - 2 := by omega
    have hleq : (i : ℚ) ≤ 2 * k - 2 := by exact_mod_cast hle
    rw [hb2] at hnb
    change |f64Value (ofInt i) - _| ≤ _ at hnb
    rw [← ha, hk, abs_of_nonneg (by linarith), abs_of_nonneg (by linarith)] at hnb
    linarith
  have hmi := hti _ hb2f (by
      change _ ≠ f64Value (ofInt i)
      rw [hb2, ← ha, hk]
      intro hx
      linarith) (by
    change |f64Value (ofInt i) - _| = _
    rw [hb2, ← ha, hk, hieq]
    push_cast
    rw [show 2 * (k : ℚ) - (2 * k - 1) = 1 by ring, show 2 * ((k : ℚ) - 1) - (2 * k - 1) = -1 by ring]
    norm_num)
  change f64Mantissa (ofInt i) % 2 = 0 at hmi
  omega

/-- The fractional part as computed. -/
theorem frac_core {r s c : Int} (hc : 0 < c) (hc' : c ≤ 2 ^ 127) (hr : 0 ≤ r) (hrs : r ≤ s)
    (hs : s ≤ c) :
    0 ≤ f64Value (F64.div (ofInt r) (ofInt c)) ∧
    f64Value (F64.div (ofInt r) (ofInt c)) ≤ f64Value (F64.div (ofInt s) (ofInt c)) ∧
    f64Value (F64.div (ofInt s) (ofInt c)) ≤ 1 := by
  have b : ∀ x : Int, 0 ≤ x → x ≤ c → |(x : ℚ)| ≤ 2 ^ 200 := fun x h1 h2 =>
    R_int_bound (by rw [abs_of_nonneg h1]; omega)
  unfold F64.div
  simp only [toRat_eq]
  have hC : 1 ≤ f64Value (ofInt c) := by
    have := R_mono (v := ((1 : Int) : ℚ)) (w := c) (b 1 (by omega) (by omega)) (b c hc.le le_rfl)
      (by exact_mod_cast hc)
    have e := ofInt_exact (z := 1) (by norm_num)
    unfold ofInt at e ⊢
    rw [e] at this
    push_cast at this
    exact this
  have hR0 : 0 ≤ f64Value (ofInt r) := R_nonneg (b r hr (by omega)) (by exact_mod_cast hr)
  have hRS : f64Value (ofInt r) ≤ f64Value (ofInt s) :=
    R_mono (b r hr (by omega)) (b s (by omega) hs) (by exact_mod_cast hrs)
  have hSC : f64Value (ofInt s) ≤ f64Value (ofInt c) :=
    R_mono (b s (by omega) hs) (b c hc.le le_rfl) (by exact_mod_cast hs)
  generalize f64Value (ofInt r) = R at *
  generalize f64Value (ofInt s) = S at *
  generalize f64Value (ofInt c) = C at *
  have hCpos : 0 < C := by linarith
  have e0 : 0 ≤ R / C := by positivity
  have e1 : R / C ≤ S / C := by gcongr
  have e2 : S / C ≤ 1 := by rw [div_le_one hCpos]; exact hSC
  have h200 : (1 : ℚ) ≤ 2 ^ 200 := one_le_pow₀ (by norm_num)
  have bR : |R / C| ≤ 2 ^ 200 := by rw [abs_of_nonneg e0]; linarith
  have bS : |S / C| ≤ 2 ^ 200 := by rw [abs_of_nonneg (by linarith)]; linarith
  refine ⟨R_nonneg bR e0, R_mono bR bS e1, ?_⟩
  have := R_le_pow (n := 0) (by norm_num) bS (by simpa using e2)
  simpa using this

theorem core_nonneg {z c : Int} (hc : 0 < c) (hc' : c ≤ 2 ^ 127) (h0 : 0 ≤ z) (h1 : z ≤ 2 ^ 127) :
    0 ≤ f64Value (f64Core z c) := by
  have hi := Int.tdiv_nonneg h0 hc.le
  have hr := Int.tmod_nonneg c h0
  have hr2 := Int.tmod_lt_of_pos z hc
  obtain ⟨f0, -, f1⟩ := frac_core hc hc' hr le_rfl hr2.le
  have hib := abs_tdiv_le_self z hc
  rw [abs_of_nonneg h0] at hib
  have hib : |(z.tdiv c : ℚ)| ≤ 2 ^ 200 := by
    have := R_int_bound (i := z.tdiv c) (by omega)
    exact this
  have hI0 : 0 ≤ f64Value (ofInt (z.tdiv c)) := R_nonneg (by exact_mod_cast hib) (by exact_mod_cast hi)
  have hIU : f64Value (ofInt (z.tdiv c)) ≤ 2 ^ 127 := by
    refine R_le_pow (by norm_num) (by exact_mod_cast hib) ?_
    have : z.tdiv c ≤ 2 ^ 127 := by
      have := abs_tdiv_le_self z hc
      rw [abs_of_nonneg h0, abs_of_nonneg hi] at this
      omega
    exact_mod_cast this
  unfold f64Core F64.add
  simp only [toRat_eq]
  have h127 : (2 : ℚ) ^ 127 + 1 ≤ 2 ^ 200 := by norm_num
  refine R_nonneg ?_ (by linarith)
  rw [abs_of_nonneg (by linarith)]
  linarith

/-- The computation is monotone on non-negative raw values. -/
theorem core_mono_nonneg {z w c : Int} (hc : 0 < c) (hc' : c ≤ 2 ^ 127) (h0 : 0 ≤ z) (hzw : z ≤ w)
    (h1 : w ≤ 2 ^ 127) : f64Value (f64Core z c) ≤ f64Value (f64Core w c) := by
  have hi := Int.tdiv_nonneg h0 hc.le
  have hj := Int.tdiv_nonneg (h0.trans hzw) hc.le
  have hr := Int.tmod_nonneg c h0
  have hr2 := Int.tmod_lt_of_pos z hc
  have hs := Int.tmod_nonneg c (h0.trans hzw)
  have hs2 := Int.tmod_lt_of_pos w hc
  have ez := Int.mul_tdiv_add_tmod z c
  have ew := Int.mul_tdiv_add_tmod w c
  have hjb : w.tdiv c ≤ 2 ^ 127 := by
    have := abs_tdiv_le_self w hc
    rw [abs_of_nonneg (h0.trans hzw), abs_of_nonneg hj] at this
    omega
  have hij : z.tdiv c ≤ w.tdiv c := by
    by_contra hx
    have : c * (w.tdiv c + 1) ≤ c * z.tdiv c := by gcongr; omega
    rw [mul_add] at this
    omega
  have bI : ∀ x : Int, 0 ≤ x → x ≤ w.tdiv c → |(x : ℚ)| ≤ 2 ^ 200 := fun x h2 h3 =>
    R_int_bound (by rw [abs_of_nonneg h2]; omega)
  have nI : ∀ x : Int, 0 ≤ x → x ≤ w.tdiv c →
      0 ≤ f64Value (ofInt x) ∧ f64Value (ofInt x) ≤ 2 ^ 127 := fun x h2 h3 =>
    ⟨R_nonneg (bI x h2 h3) (by exact_mod_cast h2),
      R_le_pow (by norm_num) (bI x h2 h3) (by exact_mod_cast (h3.trans hjb))⟩
  have h127 : (2 : ℚ) ^ 127 + 1 ≤ 2 ^ 200 := by norm_num
  have bS : ∀ a f : ℚ, 0 ≤ a → a ≤ 2 ^ 127 → 0 ≤ f → f ≤ 1 → |a + f| ≤ 2 ^ 200 := by
    intro a f h2 h3 h4 h5
    rw [abs_of_nonneg (by linarith)]
    linarith
  obtain ⟨i0, i1⟩ := nI _ hi hij
  obtain ⟨j0, j1⟩ := nI _ hj le_rfl
  obtain ⟨f0, -, f1⟩ := frac_core hc hc' hr le_rfl hr2.le
  obtain ⟨g0, -, g1⟩ := frac_core hc hc' hs le_rfl hs2.le
  unfold f64Core F64.add
  simp only [toRat_eq]
  rcases hij.eq_or_lt with he | hlt
  · have hrs : z.tmod c ≤ w.tmod c := by rw [he] at ez; omega
    have hm := (frac_core hc hc' hr hrs hs2.le).2.1
    rw [← he] at j0 j1 ⊢
    exact R_mono (bS _ _ i0 i1 f0 f1) (bS _ _ j0 j1 g0 g1) (by linarith)
  · calc _ ≤ f64Value (ofRat (f64Value (ofInt (z.tdiv c)) + 1)) :=
          R_mono (bS _ _ i0 i1 f0 f1) (bS _ _ i0 i1 (by norm_num) le_rfl) (by linarith)
      _ ≤ f64Value (ofInt (z.tdiv c + 1)) := R_succ hi (by omega)
      _ ≤ f64Value (ofInt (w.tdiv c)) :=
          R_mono (bI _ (by omega) (by omega)) (bI _ hj le_rfl) (by exact_mod_cast hlt)
      _ = f64Value (ofRat (f64Value (ofInt (w.tdiv c)))) := by
          symm
          have hb := bI _ hj le_rfl
          refine ofRat_exact ?_ (ofInt (w.tdiv c)) (ofRat_nearest (lt_of_le_of_lt hb big_lt)).1 rfl
          refine lt_of_le_of_lt ?_ big_lt
          rw [abs_of_nonneg j0]
          linarith
      _ ≤ _ := R_mono (by rw [abs_of_nonneg j0]; linarith) (bS _ _ j0 j1 g0 g1) (by linarith)

theorem core_mono {z w c : Int} (hc : 0 < c) (hc' : c ≤ 2 ^ 127) (hz : |z| ≤ 2 ^ 127)
    (hw : |w| ≤ 2 ^ 127) (h : z ≤ w) : f64Value (f64Core z c) ≤ f64Value (f64Core w c) := by
  rw [abs_le] at hz hw
  rcases le_or_gt 0 z with h0 | h0
  · exact core_mono_nonneg hc hc' h0 h hw.2
  · have e1 : f64Value (f64Core z c) = -f64Value (f64Core (-z) c) := by rw [core_neg, neg_neg]
    rcases le_or_gt 0 w with h1 | h1
    · have := core_nonneg hc hc' (z := -z) (by omega) (by omega)
      have := core_nonneg hc hc' h1 hw.2
      linarith
    · have e2 : f64Value (f64Core w c) = -f64Value (f64Core (-w) c) := by rw [core_neg, neg_neg]
      rw [e1, e2, neg_le_neg_iff]
      exact core_mono_nonneg hc hc' (by omega) (by omega) (by omega)

end Fixnum
