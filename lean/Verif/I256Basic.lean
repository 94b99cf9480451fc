import Verif.I256
import Verif.U256Knuth
import Mathlib.Data.Nat.Bitwise
import Mathlib.Algebra.Order.Ring.Abs

/-! # Helper lemmas: `I256` arithmetic is exact -/

namespace Fixnum

open Res

variable {ε : Type}

namespace I256

theorem toInt_bounds (x : I256) : -2 ^ 255 ≤ x.toInt ∧ x.toInt < 2 ^ 255 := by
  have := U256.toNat_lt x.inner
  unfold toInt
  split <;> omega

theorem toInt_inj {x y : I256} (h : x.toInt = y.toInt) : x = y := by
  have h1 := U256.toNat_lt x.inner
  have h2 := U256.toNat_lt y.inner
  unfold toInt at h
  ext1
  apply U256.toNat_inj
  split at h <;> split at h <;> omega

/-- `toInt` is determined by the unsigned value modulo `2^256`. -/
theorem toInt_of_mod (x : I256) (z : Int) (h1 : -2 ^ 255 ≤ z) (h2 : z < 2 ^ 255) (k : Int)
    (h : (x.inner.toNat : Int) = z + 2 ^ 256 * k) : x.toInt = z := by
  have := U256.toNat_lt x.inner
  unfold toInt
  split <;> omega

theorem toNat_mod (x : I256) : ∃ k : Int, (x.inner.toNat : Int) = x.toInt + 2 ^ 256 * k := by
  unfold toInt
  split
  · exact ⟨0, by omega⟩
  · exact ⟨1, by omega⟩

theorem and_signMask (w : W64) : (w &&& signMask != 0) = decide (2 ^ 63 ≤ w.toNat) := by
  have hl := w.isLt
  have h : w &&& signMask = 0 ↔ ¬ 2 ^ 63 ≤ w.toNat := by
    have hmsb : w.msb = w.getLsbD 63 := by simp [BitVec.msb_eq_getLsbD_last]
    have hm : w.msb = decide (2 ^ 63 ≤ w.toNat) := by
      rw [BitVec.msb_eq_decide]
    have hg : w.getLsbD 63 = decide (2 ^ 63 ≤ w.toNat) := by rw [← hmsb, hm]
    have hand : (w &&& signMask).toNat = (decide (2 ^ 63 ≤ w.toNat)).toNat * 2 ^ 63 := by
      rw [BitVec.toNat_and]
      rw [show signMask.toNat = 2 ^ 63 by decide, Nat.and_two_pow, ← hg]
      rfl
    constructor
    · intro h0 hc
      rw [h0, decide_eq_true hc] at hand
      simp at hand
    · intro hc
      rw [decide_eq_false hc] at hand
      apply BitVec.eq_of_toNat_eq
      rw [hand]; simp
  by_cases hc : 2 ^ 63 ≤ w.toNat
  · rw [decide_eq_true hc]
    simp only [bne_iff_ne, ne_eq, h, not_not]
    exact hc
  · rw [decide_eq_false hc]
    simp only [bne_eq_false_iff_eq, h]
    exact hc

theorem isNegative_eq (x : I256) : x.isNegative = decide (x.toInt < 0) := by
  have h0 := x.inner.w0.isLt; have h1 := x.inner.w1.isLt
  have h2 := x.inner.w2.isLt; have h3 := x.inner.w3.isLt
  rw [isNegative, and_signMask]
  have : 2 ^ 63 ≤ x.inner.w3.toNat ↔ ¬ x.inner.toNat < 2 ^ 255 := by
    simp only [U256.toNat]; omega
  have hl := U256.toNat_lt x.inner
  unfold toInt
  by_cases hc : x.inner.toNat < 2 ^ 255
  · rw [decide_eq_false (by rw [this]; simpa using hc), if_pos hc, decide_eq_false (by omega)]
  · rw [decide_eq_true (by rw [this]; exact hc), if_neg hc, decide_eq_true (by omega)]

theorem sshiftRight64 (x : BitVec 128) : (x.sshiftRight 64).toInt = x.toInt / 2 ^ 64 := by
  rw [BitVec.toInt_sshiftRight, Int.shiftRight_eq_div_pow]; norm_num

theorem fromI128_toInt (x : BitVec 128) : (fromI128 x).toInt = x.toInt := by
  have hx := x.isLt
  have e0 : (x.setWidth 64).toNat = x.toNat % 2 ^ 64 := by rw [BitVec.toNat_setWidth]
  have e1 : ((x.sshiftRight 64).setWidth 64).toNat = x.toNat / 2 ^ 64 := by
    rw [BitVec.toNat_setWidth]
    have hs := sshiftRight64 x
    rw [BitVec.toInt_eq_toNat_cond, BitVec.toInt_eq_toNat_cond] at hs
    have hl := (x.sshiftRight 64).isLt
    split at hs <;> split at hs <;> omega
  have ht : x.toInt = if x.toNat < 2 ^ 127 then (x.toNat : Int) else x.toNat - 2 ^ 128 := by
    rw [BitVec.toInt_eq_toNat_cond]
    split <;> split <;> omega
  have hval : (fromI128 x).inner.toNat =
      if x.toInt < 0 then x.toNat + (2 ^ 256 - 2 ^ 128) else x.toNat := by
    simp only [fromI128, U256.toNat]
    rw [e0, e1]
    split
    · rw [show (BitVec.allOnes 64).toNat = 2 ^ 64 - 1 by decide]; omega
    · rw [show BitVec.toNat (0 : W64) = 0 from rfl]; omega
  unfold toInt
  rw [hval, ht]
  split <;> split <;> split <;> omega

theorem min_toInt : min.toInt = -2 ^ 255 := by decide
theorem max_toInt : max.toInt = 2 ^ 255 - 1 := by decide
theorem one_toInt : one.toInt = 1 := by decide
theorem zero_toInt : zero.toInt = 0 := by decide
theorem one_toNat : one.inner.toNat = 1 := by decide
theorem u128Max_toInt : u128Max.toInt = 2 ^ 128 - 1 := by decide
theorem i128Max_toInt : i128Max.toInt = 2 ^ 127 - 1 := by
  rw [i128Max, fromI128_toInt]; decide
theorem i128Min_toInt : i128Min.toInt = -2 ^ 127 := by
  rw [i128Min, fromI128_toInt]; decide

theorem neg_spec (cfg : Cfg) (x : I256) (h : x.toInt ≠ -2 ^ 255) :
    ∃ r, (neg cfg x : Res ε _) = .ok r ∧ r.toInt = -x.toInt := by
  have hne : x ≠ min := fun he => h (by rw [he, min_toInt])
  refine ⟨⟨(U256.overflowingAdd (U256.not x.inner) one.inner).1⟩, ?_, ?_⟩
  · simp [neg, debugAssert, hne]
  · have hb := toInt_bounds x
    have hl := U256.toNat_lt x.inner
    have hadd := U256.overflowingAdd_spec (U256.not x.inner) one.inner
    rw [U256.not_toNat, one_toNat] at hadd
    obtain ⟨k, hk⟩ := toNat_mod x
    generalize U256.overflowingAdd (U256.not x.inner) one.inner = r at *
    obtain ⟨r, o⟩ := r
    apply toInt_of_mod _ _ (by omega) (by omega) (1 - k - o.toNat)
    dsimp only at hadd ⊢
    zify [show 1 ≤ 2 ^ 256 by norm_num, show x.inner.toNat ≤ 2 ^ 256 - 1 by omega] at hadd
    rw [hk] at hadd
    linear_combination hadd

theorem negIf_spec (cfg : Cfg) (x : I256) (h : x.toInt ≠ -2 ^ 255) :
    ∃ r, (negIf cfg x.isNegative x : Res ε _) = .ok r ∧
      (r.inner.toNat : Int) = |x.toInt| ∧ r.toInt = |x.toInt| := by
  rw [isNegative_eq]
  have hb := toInt_bounds x
  have key : ∀ r : I256, r.toInt = |x.toInt| → (r.inner.toNat : Int) = |x.toInt| := by
    intro r hr
    have hl := U256.toNat_lt r.inner
    rw [← hr]
    have h0 : 0 ≤ r.toInt := by rw [hr]; exact abs_nonneg _
    clear hr
    unfold toInt at h0 ⊢
    split at h0 <;> omega
  by_cases hc : x.toInt < 0
  · rw [decide_eq_true hc]
    obtain ⟨r, h1, h2⟩ := neg_spec (ε := ε) cfg x h
    have h3 : r.toInt = |x.toInt| := by rw [h2, abs_of_neg hc]
    exact ⟨r, by simpa [negIf] using h1, key r h3, h3⟩
  · rw [decide_eq_false hc]
    have h3 : x.toInt = |x.toInt| := (abs_of_nonneg (by omega)).symm
    exact ⟨x, by simp [negIf], key x h3, h3⟩

/-- A non-negative unsigned value below `2^255` is its own signed value. -/
theorem toInt_of_lt (u : U256) (h : u.toNat < 2 ^ 255) : (I256.mk u).toInt = u.toNat := by
  unfold toInt; rw [if_pos h]

theorem ne_min_of_lt (u : U256) (h : u.toNat < 2 ^ 255) : (I256.mk u).toInt ≠ -2 ^ 255 := by
  rw [toInt_of_lt u h]; omega

theorem fixSign_spec (cfg : Cfg) (x y : Int) (r : U256) (h : r.toNat < 2 ^ 255) :
    ∃ n, (if decide (x < 0) == decide (y < 0) then (.ok ⟨r⟩ : Res ε I256) else neg cfg ⟨r⟩)
      = .ok n ∧ n.toInt = if (x < 0 ↔ y < 0) then (r.toNat : Int) else -r.toNat := by
  obtain ⟨n, hn, en⟩ := neg_spec (ε := ε) cfg ⟨r⟩ (ne_min_of_lt r h)
  rw [toInt_of_lt r h] at en
  by_cases hxy : (x < 0 ↔ y < 0)
  · rw [if_pos hxy]
    have hb : (decide (x < 0) == decide (y < 0)) = true := by
      rw [beq_iff_eq, decide_eq_decide]; exact hxy
    rw [if_pos hb]
    exact ⟨⟨r⟩, rfl, toInt_of_lt r h⟩
  · rw [if_neg hxy]
    have hb : ¬ (decide (x < 0) == decide (y < 0)) = true := by
      rw [beq_iff_eq, decide_eq_decide]; exact hxy
    rw [if_neg hb]
    exact ⟨n, hn, en⟩

theorem abs_mul_sign (x y : Int) :
    (if (x < 0 ↔ y < 0) then |x| * |y| else -(|x| * |y|)) = x * y := by
  by_cases hx : x < 0 <;> by_cases hy : y < 0
  · rw [if_pos (by simp [hx, hy]), abs_of_neg hx, abs_of_neg hy]; ring
  · rw [if_neg (by simp [hx, hy]), abs_of_neg hx, abs_of_nonneg (not_lt.1 hy)]; ring
  · rw [if_neg (by simp [hx, hy]), abs_of_nonneg (not_lt.1 hx), abs_of_neg hy]; ring
  · rw [if_pos (by simp [hx, hy]), abs_of_nonneg (not_lt.1 hx), abs_of_nonneg (not_lt.1 hy)]

theorem abs_tdiv_sign (x y : Int) :
    (if (x < 0 ↔ y < 0) then |x|.tdiv |y| else -(|x|.tdiv |y|)) = x.tdiv y := by
  by_cases hx : x < 0 <;> by_cases hy : y < 0
  · rw [if_pos (by simp [hx, hy]), abs_of_neg hx, abs_of_neg hy, Int.neg_tdiv, Int.tdiv_neg,
      neg_neg]
  · rw [if_neg (by simp [hx, hy]), abs_of_neg hx, abs_of_nonneg (not_lt.1 hy), Int.neg_tdiv,
      neg_neg]
  · rw [if_neg (by simp [hx, hy]), abs_of_nonneg (not_lt.1 hx), abs_of_neg hy, Int.tdiv_neg,
      neg_neg]
  · rw [if_pos (by simp [hx, hy]), abs_of_nonneg (not_lt.1 hx), abs_of_nonneg (not_lt.1 hy)]

theorem lt_pow_of_cast {n : Nat} {z : Int} (h : z < 2 ^ 255) (e : (n : Int) = z) :
    n < 2 ^ 255 := by omega

theorem mul_spec (cfg : Cfg) (x y : I256) (hx : x.toInt ≠ -2 ^ 255) (hy : y.toInt ≠ -2 ^ 255)
    (h : |x.toInt * y.toInt| < 2 ^ 255) :
    ∃ r, (mul cfg x y : Res ε _) = .ok r ∧ r.toInt = x.toInt * y.toInt := by
  obtain ⟨a, ha, ea, _⟩ := negIf_spec (ε := ε) cfg x hx
  obtain ⟨b, hb, eb, _⟩ := negIf_spec (ε := ε) cfg y hy
  have hprod : ((a.inner.toNat * b.inner.toNat : Nat) : Int) = |x.toInt * y.toInt| := by
    rw [abs_mul, ← ea, ← eb, Nat.cast_mul]
  have hlt := lt_pow_of_cast h hprod
  obtain ⟨r, hr, er⟩ := U256.mul_spec (ε := ε) cfg a.inner b.inner
    (lt_trans hlt (Nat.pow_lt_pow_right (by norm_num) (by norm_num)))
  rw [← er] at hlt hprod
  obtain ⟨n, hn, en⟩ := fixSign_spec (ε := ε) cfg x.toInt y.toInt r hlt
  refine ⟨n, ?_, ?_⟩
  · unfold mul
    simp only [ha, hb, hr, ok_bind]
    rw [isNegative_eq, isNegative_eq]
    exact hn
  · rw [en, hprod, abs_mul]; exact abs_mul_sign _ _

theorem div_spec (cfg : Cfg) (x y : I256) (hx : x.toInt ≠ -2 ^ 255) (hy : y.toInt ≠ -2 ^ 255)
    (h0 : y.toInt ≠ 0) :
    ∃ r, (div cfg x y : Res ε _) = .ok r ∧ r.toInt = x.toInt.tdiv y.toInt := by
  obtain ⟨a, ha, ea, _⟩ := negIf_spec (ε := ε) cfg x hx
  obtain ⟨b, hb, eb, _⟩ := negIf_spec (ε := ε) cfg y hy
  have hxb := toInt_bounds x
  have hab : |x.toInt| < 2 ^ 255 := by rw [abs_lt]; omega
  have halt := lt_pow_of_cast hab ea
  have hb0 : b.inner.toNat ≠ 0 := by
    intro hc
    rw [hc] at eb
    exact h0 (abs_eq_zero.1 eb.symm)
  obtain ⟨r, hr, er⟩ := U256.div_spec (ε := ε) cfg a.inner b.inner hb0
  have hrlt : r.toNat < 2 ^ 255 := by
    rw [er]; exact lt_of_le_of_lt (Nat.div_le_self _ _) halt
  have hrt : (r.toNat : Int) = |x.toInt|.tdiv |y.toInt| := by
    rw [er, ← ea, ← eb, ← Int.ofNat_tdiv]
  obtain ⟨n, hn, en⟩ := fixSign_spec (ε := ε) cfg x.toInt y.toInt r hrlt
  refine ⟨n, ?_, ?_⟩
  · unfold div
    simp only [ha, hb, hr, ok_bind]
    rw [isNegative_eq, isNegative_eq]
    exact hn
  · rw [en, hrt]; exact abs_tdiv_sign _ _

theorem add_spec (x y : I256) (h1 : -2 ^ 255 ≤ x.toInt + y.toInt)
    (h2 : x.toInt + y.toInt < 2 ^ 255) : (add x y).toInt = x.toInt + y.toInt := by
  have hadd := U256.overflowingAdd_spec x.inner y.inner
  obtain ⟨k, hk⟩ := toNat_mod x
  obtain ⟨l, hl⟩ := toNat_mod y
  unfold add
  generalize U256.overflowingAdd x.inner y.inner = r at *
  obtain ⟨r, o⟩ := r
  apply toInt_of_mod _ _ h1 h2 (k + l - o.toNat)
  dsimp only at hadd ⊢
  zify at hadd
  rw [hk, hl] at hadd
  linear_combination hadd

theorem sub_spec (x y : I256) (h1 : -2 ^ 255 ≤ x.toInt - y.toInt)
    (h2 : x.toInt - y.toInt < 2 ^ 255) : (sub x y).toInt = x.toInt - y.toInt := by
  have hsub := U256.overflowingSub_spec x.inner y.inner
  obtain ⟨k, hk⟩ := toNat_mod x
  obtain ⟨l, hl⟩ := toNat_mod y
  unfold sub
  generalize U256.overflowingSub x.inner y.inner = r at *
  obtain ⟨r, o⟩ := r
  apply toInt_of_mod _ _ h1 h2 (k - l + o.toNat)
  dsimp only at hsub ⊢
  zify at hsub
  rw [hk, hl] at hsub
  linear_combination hsub

theorem cmp_spec (x y : I256) : cmp x y = compare x.toInt y.toInt := by
  have hx := toInt_bounds x
  have hy := toInt_bounds y
  have hxl := U256.toNat_lt x.inner
  have hyl := U256.toNat_lt y.inner
  have tox : (x.inner.toNat : Int) = if x.toInt < 0 then x.toInt + 2 ^ 256 else x.toInt := by
    unfold toInt; split <;> split <;> omega
  have toy : (y.inner.toNat : Int) = if y.toInt < 0 then y.toInt + 2 ^ 256 else y.toInt := by
    unfold toInt; split <;> split <;> omega
  have same : (x.toInt < 0 ↔ y.toInt < 0) →
      U256.cmp x.inner y.inner = compare x.toInt y.toInt := by
    intro hs
    rw [U256.cmp_spec]
    have h : ((x.inner.toNat : Int) < y.inner.toNat ↔ x.toInt < y.toInt) ∧
        ((x.inner.toNat : Int) = y.inner.toNat ↔ x.toInt = y.toInt) := by
      rw [tox, toy]
      by_cases hc : x.toInt < 0
      · rw [if_pos hc, if_pos (hs.1 hc)]; omega
      · rw [if_neg hc, if_neg (fun h => hc (hs.2 h))]; omega
    rcases lt_trichotomy x.toInt y.toInt with h3 | h3 | h3
    · rw [compare_lt_iff_lt.2 h3]
      exact compare_lt_iff_lt.2 (by exact_mod_cast h.1.2 h3)
    · rw [compare_eq_iff_eq.2 h3]
      exact compare_eq_iff_eq.2 (by exact_mod_cast h.2.2 h3)
    · rw [compare_gt_iff_gt.2 h3]
      apply compare_gt_iff_gt.2
      have h4 := h.1
      have h5 := h.2
      have : (y.inner.toNat : Int) < x.inner.toNat := by omega
      exact_mod_cast this
  unfold cmp
  rw [isNegative_eq, isNegative_eq]
  by_cases hxn : x.toInt < 0 <;> by_cases hyn : y.toInt < 0
  · rw [decide_eq_true hxn, decide_eq_true hyn]; exact same (by simp [hxn, hyn])
  · rw [decide_eq_true hxn, decide_eq_false hyn]
    exact (compare_lt_iff_lt.2 (by omega)).symm
  · rw [decide_eq_false hxn, decide_eq_true hyn]
    exact (compare_gt_iff_gt.2 (by omega)).symm
  · rw [decide_eq_false hxn, decide_eq_false hyn]; exact same (by simp [hxn, hyn])

theorem low128_toNat (a b : W64) :
    (a.setWidth 128 ||| (b.setWidth 128 <<< 64)).toNat = a.toNat + b.toNat * 2 ^ 64 := by
  have ha := a.isLt
  have hb := b.isLt
  rw [BitVec.toNat_or, BitVec.toNat_shiftLeft, Nat.shiftLeft_eq, BitVec.toNat_setWidth,
    BitVec.toNat_setWidth, Nat.mod_eq_of_lt (show a.toNat < 2 ^ 128 by omega),
    Nat.mod_eq_of_lt (show b.toNat < 2 ^ 128 by omega),
    Nat.mod_eq_of_lt (show b.toNat * 2 ^ 64 < 2 ^ 128 by omega)]
  exact U256.or_add_of_lt' _ _ _ ha

theorem tryToI128_ok (x : I256) (h : Fits 128 x.toInt) :
    tryToI128 x = .ok (BitVec.ofInt 128 x.toInt) := by
  obtain ⟨h1, h2⟩ := h
  norm_num [iMin, iMax] at h1 h2
  have hc : ¬ (cmp x i128Max = .gt ∨ cmp x i128Min = .lt) := by
    rw [cmp_spec, cmp_spec, i128Max_toInt, i128Min_toInt, compare_gt_iff_gt, compare_lt_iff_lt]
    omega
  rw [tryToI128, if_neg hc]
  congr 1
  have hl := U256.toNat_lt x.inner
  have h0 := x.inner.w0.isLt; have h1' := x.inner.w1.isLt
  have h2' := x.inner.w2.isLt; have h3 := x.inner.w3.isLt
  apply BitVec.eq_of_toNat_eq
  rw [low128_toNat, BitVec.toNat_ofInt]
  have hm : ((x.inner.w0.toNat + x.inner.w1.toNat * 2 ^ 64 : Nat) : Int)
      = x.toInt % 2 ^ 128 := by
    have : x.toInt % 2 ^ 128 = (x.inner.toNat : Int) % 2 ^ 128 := by
      obtain ⟨k, hk⟩ := toNat_mod x
      rw [hk]; omega
    rw [this, U256.toNat]
    push_cast
    omega
  have : x.toInt % ((2 ^ 128 : Nat) : Int) = x.toInt % 2 ^ 128 := by norm_num
  rw [this, ← hm]
  rfl

theorem tryToI128_err (x : I256) (h : ¬ Fits 128 x.toInt) :
    tryToI128 x = .err .overflow := by
  have hc : cmp x i128Max = .gt ∨ cmp x i128Min = .lt := by
    rw [cmp_spec, cmp_spec, i128Max_toInt, i128Min_toInt, compare_gt_iff_gt, compare_lt_iff_lt]
    norm_num [Fits, iMin, iMax] at h
    by_cases h1 : x.toInt < -2 ^ 127
    · exact Or.inr h1
    · left; norm_num at h1; have := h h1; omega
  rw [tryToI128, if_pos hc]

theorem ofU128_toInt (x : BitVec 128) : (ofU128 x).toInt = x.toNat := by
  have hx := x.isLt
  have hv : (U256.ofU128 x).toNat = x.toNat := by
    simp only [U256.ofU128, U256.toNat]
    rw [BitVec.toNat_setWidth, BitVec.toNat_setWidth, BitVec.toNat_ushiftRight,
      Nat.shiftRight_eq_div_pow, show BitVec.toNat (0 : W64) = 0 from rfl]
    omega
  rw [ofU128, toInt_of_lt _ (by rw [hv]; omega), hv]

theorem tryToU128_ok (x : I256) (h1 : 0 ≤ x.toInt) (h2 : x.toInt < 2 ^ 128) :
    tryToU128 x = .ok (BitVec.ofInt 128 x.toInt) := by
  have hc : ¬ (cmp x u128Max = .gt ∨ cmp x zero = .lt) := by
    rw [cmp_spec, cmp_spec, u128Max_toInt, zero_toInt, compare_gt_iff_gt, compare_lt_iff_lt]
    omega
  rw [tryToU128, if_neg hc]
  congr 1
  have h0 := x.inner.w0.isLt; have h1' := x.inner.w1.isLt
  apply BitVec.eq_of_toNat_eq
  rw [low128_toNat, BitVec.toNat_ofInt]
  have hm : ((x.inner.w0.toNat + x.inner.w1.toNat * 2 ^ 64 : Nat) : Int)
      = x.toInt % 2 ^ 128 := by
    have : x.toInt % 2 ^ 128 = (x.inner.toNat : Int) % 2 ^ 128 := by
      obtain ⟨k, hk⟩ := toNat_mod x
      rw [hk]; omega
    rw [this, U256.toNat]
    push_cast
    omega
  have : x.toInt % ((2 ^ 128 : Nat) : Int) = x.toInt % 2 ^ 128 := by norm_num
  rw [this, ← hm]
  rfl

theorem tryToU128_err (x : I256) (h : x.toInt < 0 ∨ 2 ^ 128 ≤ x.toInt) :
    tryToU128 x = .err ⟨"too big integer"⟩ := by
  have hc : cmp x u128Max = .gt ∨ cmp x zero = .lt := by
    rw [cmp_spec, cmp_spec, u128Max_toInt, zero_toInt, compare_gt_iff_gt, compare_lt_iff_lt]
    omega
  rw [tryToU128, if_pos hc]

end I256

end Fixnum
