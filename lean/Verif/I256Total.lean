import Verif.I256Basic

/-!
# `I256` multiplication, division and negation on all operands, `MIN` included

Helper lemmas for `C36_mul_determined` and `C37_div_determined`.
-/

namespace Fixnum

open Res

variable {ε : Type}

namespace I256

/-- The debug assertion of `neg` fires. -/
def NegPanics (cfg : Cfg) (x : I256) : Prop := cfg.debugAssertions = true ∧ x = min

theorem eq_min_iff (x : I256) : x = min ↔ x.toInt = -2 ^ 255 :=
  ⟨fun h => by rw [h, min_toInt], fun h => toInt_inj (by rw [h, min_toInt])⟩

theorem neg_min (cfg : Cfg) :
    (neg cfg min : Res ε I256) = if cfg.debugAssertions then .panic else .ok min := by
  unfold neg debugAssert
  have e : (⟨(U256.overflowingAdd (U256.not min.inner) one.inner).1⟩ : I256) = min := by decide
  cases cfg.debugAssertions
  · simp only [e, Bool.false_and]; rfl
  · rfl

theorem neg_panics (cfg : Cfg) (x : I256) (h : NegPanics cfg x) : (neg cfg x : Res ε I256) = .panic := by
  rw [h.2, neg_min, if_pos h.1]

theorem toInt_dvd (x : I256) : (2 : Int) ^ 256 ∣ x.toInt - x.inner.toNat := by
  obtain ⟨k, hk⟩ := toNat_mod x
  exact ⟨-k, by rw [hk]; ring⟩

theorem neg_total (cfg : Cfg) (x : I256) (h : ¬ NegPanics cfg x) :
    ∃ r, (neg cfg x : Res ε I256) = .ok r ∧ (2 : Int) ^ 256 ∣ r.toInt + x.inner.toNat := by
  have hd := toInt_dvd x
  by_cases hm : x = min
  · refine ⟨min, ?_, ?_⟩
    · rw [hm, neg_min, if_neg (fun hc => h ⟨hc, hm⟩)]
    · rw [hm]; decide
  · obtain ⟨r, h1, h2⟩ := neg_spec (ε := ε) cfg x (fun e => hm ((eq_min_iff x).2 e))
    refine ⟨r, h1, ?_⟩
    rw [h2]
    have := (Int.dvd_neg).2 hd
    rwa [neg_sub, sub_eq_neg_add] at this

theorem negIf_total (cfg : Cfg) (x : I256) (h : ¬ NegPanics cfg x) :
    ∃ r, (negIf cfg x.isNegative x : Res ε I256) = .ok r ∧ (r.inner.toNat : Int) = |x.toInt| := by
  by_cases hm : x = min
  · refine ⟨min, ?_, by rw [hm]; decide⟩
    rw [hm, show min.isNegative = true by decide]
    unfold negIf
    rw [if_pos rfl, neg_min, if_neg (fun hc => h ⟨hc, hm⟩)]
  · obtain ⟨r, h1, h2, _⟩ := negIf_spec (ε := ε) cfg x (fun e => hm ((eq_min_iff x).2 e))
    exact ⟨r, h1, h2⟩

theorem negIf_panics (cfg : Cfg) (x : I256) (h : NegPanics cfg x) :
    (negIf cfg x.isNegative x : Res ε I256) = .panic := by
  rw [h.2, show min.isNegative = true by decide]
  unfold negIf
  rw [if_pos rfl, neg_min, if_pos h.1]

/-- The last step of `mul` and `div`. -/
theorem fixSign_total (cfg : Cfg) (x y : Int) (r : U256)
    (h : ¬ (cfg.debugAssertions = true ∧ ¬ (x < 0 ↔ y < 0) ∧ r.toNat = 2 ^ 255)) :
    ∃ n, (if decide (x < 0) == decide (y < 0) then (.ok ⟨r⟩ : Res ε I256) else neg cfg ⟨r⟩)
      = .ok n ∧
      (2 : Int) ^ 256 ∣ n.toInt - if (x < 0 ↔ y < 0) then (r.toNat : Int) else -r.toNat := by
  by_cases hxy : (x < 0 ↔ y < 0)
  · have hb : (decide (x < 0) == decide (y < 0)) = true := by
      rw [beq_iff_eq, decide_eq_decide]; exact hxy
    rw [if_pos hb, if_pos hxy]
    exact ⟨⟨r⟩, rfl, toInt_dvd ⟨r⟩⟩
  · have hb : ¬ (decide (x < 0) == decide (y < 0)) = true := by
      rw [beq_iff_eq, decide_eq_decide]; exact hxy
    rw [if_neg hb, if_neg hxy]
    have hm : (⟨r⟩ : I256) = min → r.toNat = 2 ^ 255 := by
      intro e
      have : r = min.inner := by rw [← e]
      rw [this]; decide
    obtain ⟨n, h1, h2⟩ := neg_total (ε := ε) cfg ⟨r⟩ (fun hc => h ⟨hc.1, hxy, hm hc.2⟩)
    exact ⟨n, h1, by rwa [sub_neg_eq_add]⟩

theorem fixSign_panics (cfg : Cfg) (x y : Int) (r : U256)
    (h : cfg.debugAssertions = true ∧ ¬ (x < 0 ↔ y < 0) ∧ r.toNat = 2 ^ 255) :
    (if decide (x < 0) == decide (y < 0) then (.ok ⟨r⟩ : Res ε I256) else neg cfg ⟨r⟩) = .panic := by
  have hb : ¬ (decide (x < 0) == decide (y < 0)) = true := by
    rw [beq_iff_eq, decide_eq_decide]; exact h.2.1
  rw [if_neg hb]
  refine neg_panics cfg _ ⟨h.1, ?_⟩
  rw [eq_min_iff]
  unfold toInt
  rw [if_neg (by show ¬ r.toNat < _; omega)]
  show (r.toNat : Int) - 2 ^ 256 = _
  rw [h.2.2]
  norm_num

theorem U256_mul_panics (cfg : Cfg) (x y : U256) (h : 2 ^ 256 ≤ x.toNat * y.toNat) :
    (U256.mul cfg x y : Res ε U256) = .panic := by
  obtain ⟨r, o, h1, _, h3⟩ := U256.overflowingMul_spec (ε := ε) cfg x y
  have ho : o = true := by rw [h3, decide_eq_true_iff]; exact h
  subst ho
  simp [U256.mul, h1]

/-- `x * y` panics. -/
def MulPanics (cfg : Cfg) (x y : I256) : Prop :=
  2 ^ 256 ≤ |x.toInt * y.toInt| ∨
    (cfg.debugAssertions = true ∧ (x = min ∨ y = min ∨ x.toInt * y.toInt = -2 ^ 255))

theorem sign_of_prod {x y : Int} (h : x * y = -2 ^ 255) : ¬ (x < 0 ↔ y < 0) := by
  intro hc
  have : 0 ≤ x * y := by
    by_cases hx : x < 0
    · exact (mul_pos_of_neg_of_neg hx (hc.1 hx)).le
    · exact mul_nonneg (not_lt.1 hx) (not_lt.1 (fun hy => hx (hc.2 hy)))
  omega

theorem prod_of_sign {x y : Int} (h : ¬ (x < 0 ↔ y < 0)) : |x * y| = -(x * y) := by
  apply abs_of_nonpos
  by_cases hx : x < 0
  · exact mul_nonpos_of_nonpos_of_nonneg hx.le (not_lt.1 fun hy => h ⟨fun _ => hy, fun _ => hx⟩)
  · have hy : y < 0 := by
      by_contra hy
      exact h ⟨fun h => absurd h hx, fun h => absurd h hy⟩
    exact mul_nonpos_of_nonneg_of_nonpos (not_lt.1 hx) hy.le

theorem mul_total (cfg : Cfg) (x y : I256) :
    (MulPanics cfg x y → (mul cfg x y : Res ε I256) = .panic) ∧
    (¬ MulPanics cfg x y → ∃ r, (mul cfg x y : Res ε I256) = .ok r ∧
      (2 : Int) ^ 256 ∣ r.toInt - x.toInt * y.toInt) := by
  by_cases hx : NegPanics cfg x
  · have : (mul cfg x y : Res ε I256) = .panic := by
      unfold mul; simp only [negIf_panics cfg x hx]; rfl
    exact ⟨fun _ => this, fun h => absurd (.inr ⟨hx.1, .inl hx.2⟩) h⟩
  obtain ⟨a, ha, ea⟩ := negIf_total (ε := ε) cfg x hx
  by_cases hy : NegPanics cfg y
  · have : (mul cfg x y : Res ε I256) = .panic := by
      unfold mul; simp only [ha, negIf_panics cfg y hy, ok_bind]; rfl
    exact ⟨fun _ => this, fun h => absurd (.inr ⟨hy.1, .inr (.inl hy.2)⟩) h⟩
  obtain ⟨b, hb, eb⟩ := negIf_total (ε := ε) cfg y hy
  have hprod : ((a.inner.toNat * b.inner.toNat : Nat) : Int) = |x.toInt * y.toInt| := by
    rw [abs_mul, ← ea, ← eb, Nat.cast_mul]
  by_cases hl : 2 ^ 256 ≤ |x.toInt * y.toInt|
  · have h2 : 2 ^ 256 ≤ a.inner.toNat * b.inner.toNat := by
      rw [← hprod] at hl; exact_mod_cast hl
    have : (mul cfg x y : Res ε I256) = .panic := by
      unfold mul
      simp only [ha, hb, U256_mul_panics cfg _ _ h2, ok_bind]; rfl
    exact ⟨fun _ => this, fun h => absurd (.inl hl) h⟩
  have h2 : a.inner.toNat * b.inner.toNat < 2 ^ 256 := by
    rw [← hprod] at hl; exact_mod_cast not_le.1 hl
  obtain ⟨r, hr, er⟩ := U256.mul_spec (ε := ε) cfg a.inner b.inner h2
  rw [← er] at hprod
  have hm : (mul cfg x y : Res ε I256) =
      if decide (x.toInt < 0) == decide (y.toInt < 0) then (.ok ⟨r⟩ : Res ε I256)
      else neg cfg ⟨r⟩ := by
    unfold mul
    simp only [ha, hb, hr, ok_bind]
    rw [isNegative_eq, isNegative_eq]
  rw [hm]
  constructor
  · rintro (h | ⟨hd, h | h | h⟩)
    · exact absurd h hl
    · exact absurd ⟨hd, h⟩ hx
    · exact absurd ⟨hd, h⟩ hy
    · refine fixSign_panics cfg _ _ r ⟨hd, sign_of_prod h, ?_⟩
      rw [h] at hprod
      have : ((r.toNat : Nat) : Int) = 2 ^ 255 := by rw [hprod]; norm_num
      exact_mod_cast this
  · intro h
    obtain ⟨n, h1, h3⟩ := fixSign_total (ε := ε) cfg x.toInt y.toInt r (by
      rintro ⟨hd, hs, hr2⟩
      refine h (.inr ⟨hd, .inr (.inr ?_)⟩)
      rw [hr2, prod_of_sign hs] at hprod
      have : (((2 : Nat) ^ 255 : Nat) : Int) = 2 ^ 255 := by norm_num
      rw [this] at hprod
      omega)
    refine ⟨n, h1, ?_⟩
    rw [hprod, abs_mul] at h3
    rwa [abs_mul_sign] at h3

theorem div_total (cfg : Cfg) (x y : I256) (h0 : y.toInt ≠ 0) :
    (cfg.debugAssertions = true ∧ (x = min ∨ y = min) → (div cfg x y : Res ε I256) = .panic) ∧
    (¬ (cfg.debugAssertions = true ∧ (x = min ∨ y = min)) →
      ∃ r, (div cfg x y : Res ε I256) = .ok r ∧
        (2 : Int) ^ 256 ∣ r.toInt - x.toInt.tdiv y.toInt) := by
  by_cases hx : NegPanics cfg x
  · have : (div cfg x y : Res ε I256) = .panic := by
      unfold div; simp only [negIf_panics cfg x hx]; rfl
    exact ⟨fun _ => this, fun h => absurd ⟨hx.1, .inl hx.2⟩ h⟩
  obtain ⟨a, ha, ea⟩ := negIf_total (ε := ε) cfg x hx
  by_cases hy : NegPanics cfg y
  · have : (div cfg x y : Res ε I256) = .panic := by
      unfold div; simp only [ha, negIf_panics cfg y hy, ok_bind]; rfl
    exact ⟨fun _ => this, fun h => absurd ⟨hy.1, .inr hy.2⟩ h⟩
  obtain ⟨b, hb, eb⟩ := negIf_total (ε := ε) cfg y hy
  have hb0 : b.inner.toNat ≠ 0 := by
    intro hc
    rw [hc] at eb
    exact h0 (abs_eq_zero.1 eb.symm)
  obtain ⟨r, hr, er⟩ := U256.div_spec (ε := ε) cfg a.inner b.inner hb0
  have hrt : (r.toNat : Int) = |x.toInt|.tdiv |y.toInt| := by
    rw [er, ← ea, ← eb, ← Int.ofNat_tdiv]
  have hm : (div cfg x y : Res ε I256) =
      if decide (x.toInt < 0) == decide (y.toInt < 0) then (.ok ⟨r⟩ : Res ε I256)
      else neg cfg ⟨r⟩ := by
    unfold div
    simp only [ha, hb, hr, ok_bind]
    rw [isNegative_eq, isNegative_eq]
  rw [hm]
  have hsmall : cfg.debugAssertions = true → r.toNat < 2 ^ 255 := by
    intro hd
    have hxb := toInt_bounds x
    have hne : x.toInt ≠ -2 ^ 255 := fun e => hx ⟨hd, (eq_min_iff x).2 e⟩
    have hab : |x.toInt| < 2 ^ 255 := by rw [abs_lt]; omega
    have halt := lt_pow_of_cast hab ea
    rw [er]; exact lt_of_le_of_lt (Nat.div_le_self _ _) halt
  constructor
  · rintro ⟨hd, h | h⟩
    · exact absurd ⟨hd, h⟩ hx
    · exact absurd ⟨hd, h⟩ hy
  · intro _
    obtain ⟨n, h1, h3⟩ := fixSign_total (ε := ε) cfg x.toInt y.toInt r (by
      rintro ⟨hd, _, hr2⟩
      have := hsmall hd
      omega)
    refine ⟨n, h1, ?_⟩
    rw [hrt] at h3
    rwa [abs_tdiv_sign] at h3

theorem add_dvd (x y : I256) : (2 : Int) ^ 256 ∣ (add x y).toInt - (x.toInt + y.toInt) := by
  have hadd := U256.overflowingAdd_spec x.inner y.inner
  have h1 := toInt_dvd x
  have h2 := toInt_dvd y
  have h3 := toInt_dvd (add x y)
  have e : ((add x y).inner.toNat : Int) =
      x.inner.toNat + y.inner.toNat -
        2 ^ 256 * ((U256.overflowingAdd x.inner y.inner).2.toNat : Int) := by
    show ((U256.overflowingAdd x.inner y.inner).1.toNat : Int) = _
    zify at hadd
    linarith
  rw [e] at h3
  generalize (U256.overflowingAdd x.inner y.inner).2.toNat = o at h3
  obtain ⟨k1, e1⟩ := h1
  obtain ⟨k2, e2⟩ := h2
  obtain ⟨k3, e3⟩ := h3
  exact ⟨k3 - k1 - k2 - o, by linear_combination e3 - e1 - e2⟩

theorem sub_dvd (x y : I256) : (2 : Int) ^ 256 ∣ (sub x y).toInt - (x.toInt - y.toInt) := by
  have hadd := U256.overflowingSub_spec x.inner y.inner
  have h1 := toInt_dvd x
  have h2 := toInt_dvd y
  have h3 := toInt_dvd (sub x y)
  have e : ((sub x y).inner.toNat : Int) =
      x.inner.toNat - y.inner.toNat +
        2 ^ 256 * ((U256.overflowingSub x.inner y.inner).2.toNat : Int) := by
    show ((U256.overflowingSub x.inner y.inner).1.toNat : Int) = _
    zify at hadd
    linarith
  rw [e] at h3
  generalize (U256.overflowingSub x.inner y.inner).2.toNat = o at h3
  obtain ⟨k1, e1⟩ := h1
  obtain ⟨k2, e2⟩ := h2
  obtain ⟨k3, e3⟩ := h3
  exact ⟨k3 - k1 + k2 + o, by linear_combination e3 - e1 + e2⟩

end I256

end Fixnum
