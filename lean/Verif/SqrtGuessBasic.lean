import Verif.SqrtBasic
import Verif.FloatOpsBasic
import Mathlib.Analysis.Real.Sqrt

/-! # Helper lemmas: the floating-point guess of the square root -/

namespace Fixnum

open Res Spec F64

/-- An `f64` of magnitude at least `2^j` is a multiple of `2^(j-52)`. -/
theorem f64Magnitude_grid (f : BitVec 64) {j : Int} (h : (2 : ℚ) ^ j ≤ f64Magnitude f) :
    ∃ N : Nat, f64Magnitude f = N * 2 ^ (j - 52) := by
  obtain ⟨m, x, hm, -, hv⟩ := f64Magnitude_form f
  have hx : j - 52 ≤ x := by
    by_contra hc
    have h1 : (2 : ℚ) ^ x ≤ 2 ^ (j - 53) := zpow_le_zpow_right₀ (by norm_num) (by omega)
    have h2 : (m : ℚ) < 2 ^ 53 := by exact_mod_cast hm
    have h3 : (m : ℚ) * 2 ^ x < 2 ^ 53 * 2 ^ (j - 53) :=
      lt_of_le_of_lt (mul_le_mul_of_nonneg_left h1 (by positivity))
        (mul_lt_mul_of_pos_right h2 (by positivity))
    have h4 : (2 : ℚ) ^ 53 * 2 ^ (j - 53) = 2 ^ j := by
      rw [← zpow_natCast, ← zpow_add₀ (by norm_num)]; congr 1; push_cast; ring
    rw [hv] at h
    linarith
  refine ⟨m * 2 ^ (x - (j - 52)).toNat, ?_⟩
  rw [hv]
  push_cast
  rw [mul_assoc, ← zpow_natCast, ← zpow_add₀ (by norm_num)]
  congr 2
  omega

/-- A number with at most 53 bits is the value of an `f64`. -/
theorem exists_f64 {m : Nat} {x : Int} (hm : m ≤ 2 ^ 53) (hx : -1074 ≤ x) (hx2 : x ≤ 900) :
    ∃ g, f64Finite g ∧ f64Value g = m * 2 ^ x := by
  have hnn : (0 : ℚ) ≤ (m : ℚ) * 2 ^ x := by positivity
  have hb : |((m : ℚ) * 2 ^ x)| < 2 ^ 1023 := by
    rw [abs_of_nonneg hnn]
    have h1 : (m : ℚ) ≤ 2 ^ 53 := by exact_mod_cast hm
    have h2 : (2 : ℚ) ^ x ≤ 2 ^ (900 : Int) := zpow_le_zpow_right₀ (by norm_num) hx2
    refine lt_of_le_of_lt (mul_le_mul h1 h2 (by positivity) (by positivity)) ?_
    rw [← zpow_natCast, ← zpow_natCast, ← zpow_add₀ (by norm_num)]
    exact zpow_lt_zpow_right₀ (by norm_num) (by norm_num)
  refine ⟨ofRat (m * 2 ^ x), (ofRat_nearest hb).1, ?_⟩
  rcases Nat.lt_or_ge m (2 ^ 53) with h | h
  · exact ofRat_repr hb h hx (abs_of_nonneg hnn)
  · have e : m = 2 ^ 53 := le_antisymm hm h
    refine ofRat_repr hb (m := 2 ^ 52) (x := x + 1) (by norm_num) (by omega) ?_
    rw [abs_of_nonneg hnn, e, zpow_add₀ (by norm_num)]
    push_cast
    ring

/-- Significand and exponent; the significand has the parity of the mantissa. -/
theorem f64Magnitude_parity (g : BitVec 64) : ∃ (m : Nat) (x : Int), m < 2 ^ 53 ∧ -1074 ≤ x ∧
    f64Magnitude g = m * 2 ^ x ∧ m % 2 = f64Mantissa g % 2 := by
  have hm : f64Mantissa g < 2 ^ 52 := Nat.mod_lt _ (by norm_num)
  unfold f64Magnitude
  by_cases h : f64Exponent g = 0
  · rw [if_pos h]
    exact ⟨f64Mantissa g, -1074, by omega, le_refl _, rfl, rfl⟩
  · rw [if_neg h]
    exact ⟨2 ^ 52 + f64Mantissa g, (f64Exponent g : Int) - 1075, by omega, by omega,
      by push_cast; rfl, by omega⟩

/-- A nearest `f64` has the value that the model's rounding gives. -/
theorem f64Nearest_value {f : BitVec 64} {v : ℚ} (hv : |v| < 2 ^ 1023) (hf : f64Nearest f v) :
    f64Value f = f64Value (ofRat v) := by
  obtain ⟨h1, h2, h3, h4⟩ := hf
  obtain ⟨g1, g2, g3, g4⟩ := ofRat_nearest hv
  by_contra hne
  have heq : |f64Value f - v| = |f64Value (ofRat v) - v| := le_antisymm (h3 _ g1) (g3 _ h1)
  have hev := h4 _ g1 (Ne.symm hne) heq
  by_cases h0 : v = 0
  · subst h0
    have z := h3 0 (by decide)
    rw [f64Value_zero, sub_self, abs_zero, sub_zero] at z
    have z2 := g3 0 (by decide)
    rw [f64Value_zero, sub_self, abs_zero, sub_zero] at z2
    exact hne ((abs_nonpos_iff.1 z).trans (abs_nonpos_iff.1 z2).symm)
  obtain ⟨e, q, hr, -, f2, -, f4⟩ := ofRat_form h0 hv
  obtain ⟨a, ha⟩ : ∃ a, a = |v| := ⟨_, rfl⟩
  rw [← ha] at hr
  -- signs agree, so everything is about magnitudes
  have key : f64Magnitude f ≠ q * 2 ^ e ∧ |f64Magnitude f - a| = |(q : ℚ) * 2 ^ e - a| := by
    unfold f64Value at hne heq
    rcases lt_or_gt_of_ne h0 with hlt | hgt
    · rw [if_pos (h2.2 hlt), if_pos (f4.2 hlt), f2] at hne heq
      rw [ha, abs_of_neg hlt]
      refine ⟨fun h => hne (by rw [h]), ?_⟩
      rw [show f64Magnitude f - -v = -(-f64Magnitude f - v) by ring, abs_neg, heq,
        show (q : ℚ) * 2 ^ e - -v = -(-(q * 2 ^ e) - v) by ring, abs_neg]
    · have n1 : ¬ f64Negative f := fun h => not_lt.2 hgt.le (h2.1 h)
      have n2 : ¬ f64Negative (ofRat v) := fun h => not_lt.2 hgt.le (f4.1 h)
      rw [if_neg n1, if_neg n2, f2] at hne heq
      rw [ha, abs_of_pos hgt]
      exact ⟨hne, heq⟩
  obtain ⟨k1, k2⟩ := key
  have hpe : (0 : ℚ) < 2 ^ e := by positivity
  obtain ⟨w, hw⟩ : ∃ w, w = a / 2 ^ e := ⟨_, rfl⟩
  have hvw : a = w * 2 ^ e := by rw [hw]; field_simp
  obtain ⟨m, x, hm, hx, hmx, hpar⟩ := f64Magnitude_parity f
  have hxe : e ≤ x := by
    by_contra hc
    have hge : (2 : ℚ) ^ 52 ≤ w := by
      rcases hr.ge with h | h
      · omega
      · rw [hw]; exact h
    have hlt : (m : ℚ) * 2 ^ x < 2 ^ 52 * 2 ^ e := by
      have a1 : (m : ℚ) < 2 ^ 53 := by exact_mod_cast hm
      have a2 : (2 : ℚ) ^ x ≤ 2 ^ (e - 1) := zpow_le_zpow_right₀ (by norm_num) (by omega)
      have a3 : (2 : ℚ) ^ 53 * 2 ^ (e - 1) = 2 ^ 52 * 2 ^ e := by
        rw [zpow_sub₀ (by norm_num)]; ring
      calc (m : ℚ) * 2 ^ x < 2 ^ 53 * 2 ^ x := mul_lt_mul_of_pos_right a1 (by positivity)
        _ ≤ 2 ^ 53 * 2 ^ (e - 1) := mul_le_mul_of_nonneg_left a2 (by norm_num)
        _ = _ := a3
    have hle : (2 : ℚ) ^ 52 * 2 ^ e ≤ a := by
      rw [hvw]; exact mul_le_mul_of_nonneg_right hge hpe.le
    have hn := (hr.nearest (m := 2 ^ 52) (x := e) (by norm_num) hr.exp).1
    push_cast at hn
    rw [← k2, hmx, abs_sub_comm, abs_of_pos (by linarith), abs_sub_comm,
      abs_of_nonneg (by linarith)] at hn
    linarith
  -- the other candidate is the integer on the other side
  obtain ⟨N, hN⟩ : ∃ N : Nat, N = m * 2 ^ (x - e).toNat := ⟨_, rfl⟩
  have hmN : f64Magnitude f = N * 2 ^ e := by
    rw [hmx, hN]
    push_cast
    rw [mul_assoc, ← zpow_natCast, ← zpow_add₀ (by norm_num)]
    congr 2
    omega
  have hNq : (N : ℚ) = 2 * w - q := by
    rcases abs_eq_abs.1 k2 with h | h
    · exact absurd (by linarith) k1
    · rw [hvw, hmN] at h
      exact mul_right_cancel₀ hpe.ne' (by linear_combination h)
  have hNe : N ≠ q := fun h => k1 (by rw [hmN, h])
  have hd : (1 : ℚ) ≤ |(N : ℚ) - q| := by
    have : (1 : ℤ) ≤ |(N : ℤ) - q| := Int.one_le_abs (by omega)
    exact_mod_cast this
  have near := hr.near
  have even := hr.even
  rw [← hw] at near even
  have htie : |(q : ℚ) - w| = 1 / 2 := by
    refine le_antisymm near ?_
    rw [hNq, show (2 * w - q - q : ℚ) = -(2 * (q - w)) by ring, abs_neg, abs_mul,
      abs_of_pos (by norm_num : (0 : ℚ) < 2)] at hd
    linarith
  have hq := even htie
  have hodd : N % 2 = 1 := by
    rcases eq_or_eq_neg_of_abs_eq htie with h | h
    · have : (N : ℚ) + 1 = q := by linarith
      have : N + 1 = q := by exact_mod_cast this
      omega
    · have : (N : ℚ) = q + 1 := by linarith
      have : N = q + 1 := by exact_mod_cast this
      omega
  have : N % 2 = 0 := by
    rw [hN, Nat.mul_mod, hpar, hev]; simp
  omega

/-- `x as f64`. -/
theorem natToF64_eq (x : Nat) (hx0 : 0 < x) (hx : x < 2 ^ 200) :
    f64Value (ofRat x) = natToF64 x := by
  have hxq : (0 : ℚ) < x := by exact_mod_cast hx0
  have hv : |(x : ℚ)| < 2 ^ 1023 := by
    rw [abs_of_pos hxq]
    have : (x : ℚ) < 2 ^ 200 := by exact_mod_cast hx
    exact lt_trans this (pow_lt_pow_right₀ (by norm_num) (by norm_num))
  obtain ⟨e, q, hr, -, f2, -, f4⟩ := ofRat_form hxq.ne' hv
  rw [abs_of_pos hxq] at hr
  have hval : f64Value (ofRat x) = q * 2 ^ e := by
    unfold f64Value
    rw [if_neg (fun h => absurd (f4.1 h) (not_lt.2 hxq.le)), f2]
  have hpe : (0 : ℚ) < 2 ^ e := by positivity
  have a1 : (2 : ℚ) ^ x.log2 ≤ x := by exact_mod_cast Nat.log2_self_le hx0.ne'
  have a2 : (x : ℚ) < 2 ^ (x.log2 + 1) := by exact_mod_cast Nat.lt_log2_self
  unfold natToF64
  dsimp only
  by_cases hl : x.log2 < 53
  · rw [if_pos hl]
    have : x < 2 ^ 53 := lt_of_lt_of_le Nat.lt_log2_self (Nat.pow_le_pow_right (by norm_num) hl)
    refine ofRat_repr hv (m := x) (x := 0) this (by norm_num) ?_
    rw [abs_of_pos hxq]; simp
  · rw [if_neg hl]
    clear hv
    have he : e = x.log2 - 52 := by
      have b1 := hr.lt
      rw [div_lt_iff₀ hpe] at b1
      have b2 : (2 : ℚ) ^ (x.log2 : Int) < 2 ^ (53 + e) := by
        rw [zpow_add₀ (by norm_num), zpow_natCast]
        exact lt_of_le_of_lt a1 b1
      have b3 := (zpow_lt_zpow_iff_right₀ (by norm_num : (1 : ℚ) < 2)).1 b2
      rcases hr.ge with h | h
      · omega
      · rw [le_div_iff₀ hpe] at h
        have b4 : (2 : ℚ) ^ (52 + e) < 2 ^ ((x.log2 + 1 : Nat) : Int) := by
          rw [zpow_add₀ (by norm_num), zpow_natCast]
          exact lt_of_le_of_lt h a2
        have b5 := (zpow_lt_zpow_iff_right₀ (by norm_num : (1 : ℚ) < 2)).1 b4
        push_cast at b5
        omega
    obtain ⟨u, hu⟩ : ∃ u, u = 2 ^ (x.log2 - 52) := ⟨_, rfl⟩
    have hup : 0 < u := by rw [hu]; positivity
    have hue : (2 : ℚ) ^ e = u := by
      rw [he, hu, show ((x.log2 : Int) - 52) = ((x.log2 - 52 : Nat) : Int) by omega, zpow_natCast]
      push_cast; rfl
    rw [← hu, hval, hue]
    have near := hr.near
    have even := hr.even
    rw [hue] at near even
    have huq : (0 : ℚ) < u := by exact_mod_cast hup
    have hdm : (x : ℚ) / u = (x / u : Nat) + ((x % u : Nat) : ℚ) / u := by
      rw [div_eq_iff huq.ne', add_mul, div_mul_cancel₀ _ huq.ne']
      have := Nat.div_add_mod x u
      have h : (x : ℚ) = (u * (x / u) + x % u : Nat) := by rw [this]
      rw [h]; push_cast; ring
    obtain ⟨Q, hQ⟩ : ∃ Q, Q = x / u := ⟨_, rfl⟩
    obtain ⟨r, hR⟩ : ∃ r, r = x % u := ⟨_, rfl⟩
    have hrlt : r < u := by rw [hR]; exact Nat.mod_lt _ hup
    rw [hdm, ← hQ, ← hR] at near even
    rw [← hQ, ← hR]
    obtain ⟨ρ, hρ⟩ : ∃ ρ, ρ = (r : ℚ) / u := ⟨_, rfl⟩
    rw [← hρ] at near even
    have hρ0 : 0 ≤ ρ := by rw [hρ]; positivity
    have hρ1 : ρ < 1 := by rw [hρ, div_lt_one huq]; exact_mod_cast hrlt
    have c1 : 2 * r < u ↔ ρ < 1 / 2 := by
      rw [hρ, div_lt_iff₀ huq]
      constructor
      · intro h
        have : (2 : ℚ) * r < u := by exact_mod_cast h
        linarith
      · intro h
        have : (2 : ℚ) * r < u := by linarith
        exact_mod_cast this
    have c2 : 2 * r = u ↔ ρ = 1 / 2 := by
      rw [hρ, div_eq_iff huq.ne']
      constructor
      · intro h
        have : (2 : ℚ) * r = u := by exact_mod_cast h
        linarith
      · intro h
        have : (2 : ℚ) * r = u := by linarith
        exact_mod_cast this
    obtain ⟨n1, n2⟩ := abs_le.1 near
    have q1 : Q ≤ q := by
      have : (Q : ℚ) < q + 1 := by linarith
      have : Q < q + 1 := by exact_mod_cast this
      omega
    have q2 : q ≤ Q + 1 := by
      have : (q : ℚ) < Q + 2 := by linarith
      have : q < Q + 2 := by exact_mod_cast this
      omega
    have hqq : q = Q ∨ q = Q + 1 := by omega
    split <;> rename_i hc
    · have : q = Q := by
        rcases hqq with h | h
        · exact h
        · exfalso
          rw [h] at n2 even
          push_cast at n2 even
          rw [c1, c2] at hc
          rcases hc with hc | ⟨hc, hc'⟩
          · linarith
          · have := even (by rw [hc, abs_of_nonneg (by linarith)]; ring)
            omega
      rw [this]; push_cast; rfl
    · have : q = Q + 1 := by
        rcases hqq with h | h
        · exfalso
          rw [h] at n1 even
          rw [c1, c2] at hc
          push Not at hc
          have h12 : ρ = 1 / 2 := le_antisymm (by linarith) hc.1
          exact hc.2 h12 (even (by
            rw [h12, show (Q : ℚ) - (Q + 1 / 2) = -(1 / 2) by ring, abs_neg]
            norm_num))
        · exact h
      rw [this]; push_cast; rfl

/-- The truncated square root. -/
theorem f64SqrtTrunc_eq {X : Nat} (hX0 : 0 < X) (hX : X < 2 ^ 106) {f : BitVec 64}
    (hmin : ∀ g, f64Finite g →
      |(f64Value f : ℝ) - Real.sqrt X| ≤ |(f64Value g : ℝ) - Real.sqrt X|) :
    ⌊f64Value f⌋ = f64SqrtTrunc X := by
  obtain ⟨j, hj⟩ : ∃ j, j = X.log2 / 2 := ⟨_, rfl⟩
  obtain ⟨k, hk⟩ : ∃ k, k = 52 - j := ⟨_, rfl⟩
  obtain ⟨t, ht⟩ : ∃ t, t = Nat.sqrt (X * 4 ^ (k + 1)) := ⟨_, rfl⟩
  obtain ⟨m, hm⟩ : ∃ m, m = (t + 1) / 2 := ⟨_, rfl⟩
  have hgoal : f64SqrtTrunc X = m / 2 ^ k := by
    unfold f64SqrtTrunc
    rw [hm, ht, hk, hj]
  have hlog : X.log2 < 106 := (Nat.log2_lt hX0.ne').2 hX
  have hjk : j + k = 52 := by omega
  have x1 : 2 ^ (2 * j) ≤ X :=
    le_trans (Nat.pow_le_pow_right (by norm_num) (by omega)) (Nat.log2_self_le hX0.ne')
  have x2 : X < 2 ^ (2 * (j + 1)) :=
    lt_of_lt_of_le Nat.lt_log2_self (Nat.pow_le_pow_right (by norm_num) (by omega))
  obtain ⟨s, hs⟩ : ∃ s, s = Real.sqrt X := ⟨_, rfl⟩
  have hs0 : 0 ≤ s := hs ▸ Real.sqrt_nonneg _
  have hss : s * s = X := by rw [hs]; exact Real.mul_self_sqrt (Nat.cast_nonneg _)
  rw [← hs] at hmin
  have s1 : (2 : ℝ) ^ j ≤ s := by
    refine (mul_self_le_mul_self_iff (by positivity) hs0).2 ?_
    rw [hss, ← pow_add, ← two_mul]
    exact_mod_cast x1
  have s2 : s < (2 : ℝ) ^ (j + 1) := by
    refine lt_of_mul_self_lt_mul_self₀ (by positivity) ?_
    rw [hss, ← pow_add, ← two_mul]
    exact_mod_cast x2
  have t1 : t * t ≤ X * 4 ^ (k + 1) := ht ▸ Nat.sqrt_le _
  have t2 : X * 4 ^ (k + 1) < (t + 1) * (t + 1) := ht ▸ Nat.lt_succ_sqrt _
  have e4 : ((X * 4 ^ (k + 1) : Nat) : ℝ) = (2 ^ (k + 1) * s) * (2 ^ (k + 1) * s) := by
    push_cast
    rw [← hss, show (4 : ℝ) = 2 * 2 by norm_num, mul_pow]
    ring
  have y1 : (t : ℝ) ≤ 2 ^ (k + 1) * s := by
    refine (mul_self_le_mul_self_iff (by positivity) (by positivity)).2 ?_
    rw [← e4]; exact_mod_cast t1
  have y2 : 2 ^ (k + 1) * s < (t : ℝ) + 1 := by
    refine lt_of_mul_self_lt_mul_self₀ (by positivity) ?_
    rw [← e4]; exact_mod_cast t2
  obtain ⟨y, hy⟩ : ∃ y, y = 2 ^ k * s := ⟨_, rfl⟩
  have hy2 : 2 ^ (k + 1) * s = 2 * y := by rw [hy, pow_succ]; ring
  rw [hy2] at y1 y2
  -- the significand is strictly nearest
  have hnear : |(m : ℝ) - y| < 1 / 2 := by
    rcases Nat.even_or_odd' t with ⟨c, hc | hc⟩
    · have e : m = c := by omega
      have ec : (t : ℝ) = 2 * c := by exact_mod_cast hc
      rw [e, abs_lt]
      constructor <;> linarith
    · have e : m = c + 1 := by omega
      have ec : (t : ℝ) = 2 * c + 1 := by exact_mod_cast hc
      have hne : (t : ℝ) ≠ 2 * y := by
        intro h
        have h4 : ((X * 4 ^ (k + 1) : Nat) : ℝ) = ((t * t : Nat) : ℝ) := by
          rw [e4, hy2, ← h]; push_cast; rfl
        have h5 : X * 4 ^ (k + 1) = t * t := by exact_mod_cast h4
        have h6 : X * 4 ^ (k + 1) % 2 = 0 := by rw [pow_succ, ← mul_assoc]; omega
        rw [h5, hc, Nat.mul_mod] at h6
        simp [Nat.add_mod] at h6
      have := lt_of_le_of_ne y1 hne
      rw [e, abs_lt]
      push_cast
      constructor <;> linarith
  have hpk : (0 : ℝ) < 2 ^ k := by positivity
  have m53 : m ≤ 2 ^ 53 := by
    have hy53 : y < 2 ^ 53 := by
      rw [hy, show (53 : Nat) = k + (j + 1) by omega, pow_add]
      exact mul_lt_mul_of_pos_left s2 hpk
    have : (m : ℝ) < 2 ^ 53 + 1 := by linarith [(abs_lt.1 hnear).2]
    have : m < 2 ^ 53 + 1 := by exact_mod_cast this
    omega
  have hzk : ∀ N : Nat, (((N : ℚ) * 2 ^ (-(k : Int)) : ℚ) : ℝ) = N / 2 ^ k := by
    intro N
    push_cast
    rw [zpow_neg, zpow_natCast, div_eq_mul_inv]
  have hdiff : ∀ N : Nat, |(N : ℝ) / 2 ^ k - s| = |(N : ℝ) - y| / 2 ^ k := by
    intro N
    rw [show (N : ℝ) / 2 ^ k - s = (N - y) / 2 ^ k by rw [hy]; field_simp, abs_div,
      abs_of_pos hpk]
  -- the computed value is as near as the significand
  obtain ⟨g, hg, gv⟩ := exists_f64 (m := m) (x := -(k : Int)) m53 (by omega) (by omega)
  have hf1 := hmin g hg
  rw [gv, hzk, hdiff] at hf1
  -- it is at least `2^j`
  have hfj : (2 : ℚ) ^ (j : Int) ≤ f64Value f := by
    by_contra hc
    push Not at hc
    obtain ⟨g', hg', gv'⟩ := exists_f64 (m := 1) (x := (j : Int)) (by norm_num) (by omega) (by omega)
    have h := hmin g' hg'
    have hc' : (f64Value f : ℝ) < 2 ^ j := by
      have : (f64Value f : ℝ) < (((2 : ℚ) ^ (j : Int) : ℚ) : ℝ) := by exact_mod_cast hc
      push_cast at this
      rwa [zpow_natCast] at this
    rw [gv'] at h
    push_cast at h
    rw [one_mul, zpow_natCast, abs_sub_comm, abs_of_pos (by linarith), abs_sub_comm,
      abs_of_nonneg (by linarith)] at h
    linarith
  have hfm : f64Value f = f64Magnitude f := by
    have hpos : (0 : ℚ) < 2 ^ (j : Int) := by positivity
    have := f64Magnitude_nonneg f
    unfold f64Value at hfj ⊢
    split
    · rename_i hn; rw [if_pos hn] at hfj; linarith
    · rfl
  obtain ⟨N, hN⟩ := f64Magnitude_grid f (j := j) (hfm ▸ hfj)
  rw [show (j : Int) - 52 = -(k : Int) by omega] at hN
  rw [hfm, hN, hzk, hdiff, div_le_div_iff_of_pos_right hpk] at hf1
  have hNm : N = m := by
    have a1 := abs_lt.1 (lt_of_le_of_lt hf1 hnear)
    have a2 := abs_lt.1 hnear
    have b1 : (N : ℝ) < m + 1 := by linarith [a1.2, a2.1]
    have b2 : (m : ℝ) < N + 1 := by linarith [a1.1, a2.2]
    have b1' : N < m + 1 := by exact_mod_cast b1
    have b2' : m < N + 1 := by exact_mod_cast b2
    omega
  rw [hfm, hN, hNm, hgoal, zpow_neg, zpow_natCast, ← div_eq_mul_inv]
  have := Rat.floor_intCast_div_natCast (m : Int) (2 ^ k)
  push_cast at this ⊢
  exact this

/-- Rounding to 53 bits: by at most half of the last place, and not below the power of two. -/
theorem natToF64_near {x : Nat} (hl : 53 ≤ x.log2) :
    2 ^ x.log2 ≤ natToF64 x ∧ 2 * x ≤ 2 * natToF64 x + 2 ^ (x.log2 - 52) ∧
      2 * natToF64 x ≤ 2 * x + 2 ^ (x.log2 - 52) := by
  have hx0 : x ≠ 0 := by rintro rfl; simp at hl
  have a1 := Nat.log2_self_le hx0
  unfold natToF64
  dsimp only
  rw [if_neg (by omega)]
  obtain ⟨u, hu⟩ : ∃ u, u = 2 ^ (x.log2 - 52) := ⟨_, rfl⟩
  have hup : 0 < u := by rw [hu]; positivity
  have e52 : 2 ^ x.log2 = 2 ^ 52 * u := by rw [hu, ← pow_add]; congr 1; omega
  rw [← hu]
  have hd := Nat.div_add_mod x u
  have hr := Nat.mod_lt x hup
  have hq : 2 ^ 52 ≤ x / u := by
    rw [Nat.le_div_iff_mul_le hup, ← e52]; exact a1
  have hq2 : 2 ^ 52 * u ≤ x / u * u := Nat.mul_le_mul_right _ hq
  have hc : u * (x / u) = x / u * u := Nat.mul_comm _ _
  have hs : (x / u + 1) * u = x / u * u + u := by ring
  rw [e52]
  split
  · omega
  · rw [hs]; omega

theorem guess_aux1 {a : Nat} (h : 3 ≤ a) : (a + 1) * (a + 1) ≤ a * a * 2 := by nlinarith

theorem guess_aux2 {s b c u X : Nat} (hb1 : 1 ≤ b) (g2 : 2 * (s * s) ≤ 2 * X + u)
    (g1 : u * b + 4 ≤ 4 * s) (hc : s * b = c + 1) : c * c ≤ X * (b * b) := by
  have g3 : (2 * (s * s)) * (b * b) ≤ (2 * X + u) * (b * b) := Nat.mul_le_mul_right _ g2
  have g4 : (u * b + 4) * b ≤ 4 * (s * b) := by rw [← mul_assoc]; exact Nat.mul_le_mul_right _ g1
  have g5 : (s * s) * (b * b) = (c + 1) * (c + 1) := by rw [← hc]; ring
  rw [hc] at g4
  have e1 : (2 * (s * s)) * (b * b) = 2 * (c * c) + 4 * c + 2 := by rw [mul_assoc, g5]; ring
  have e2 : (2 * X + u) * (b * b) = 2 * (X * (b * b)) + u * b * b := by ring
  have e3 : (u * b + 4) * b = u * b * b + 4 * b := by ring
  omega

theorem guess_aux3 {s b c X : Nat} (hb1 : 2 ≤ b) (g1 : X + (s + 2) ≤ (s + 2) * (s + 2))
    (hc : (s + 2) * b = c + 1) : X * (b * b) < c * c := by
  have g2 := Nat.mul_le_mul_right (b * b) g1
  have g5 : (s + 2) * (s + 2) * (b * b) = (c + 1) * (c + 1) := by rw [← hc]; ring
  have e1 : (X + (s + 2)) * (b * b) = X * (b * b) + (s + 2) * b * b := by ring
  have g7 : (c + 1) * 2 ≤ (c + 1) * b := Nat.mul_le_mul_left _ hb1
  have e2 : (c + 1) * (c + 1) = c * c + 2 * c + 1 := by ring
  rw [e1, g5, hc, e2] at g2
  omega

theorem guess_aux4 {s X n u : Nat} (hs : 2 ^ 26 ≤ s) (hu : u ≤ 2 ^ 11) (p : 2 * X ≤ 2 * n + u)
    (s2 : n < (s + 1) * (s + 1)) : X + (s + 2) ≤ (s + 2) * (s + 2) := by
  have e1 : (s + 1) * (s + 1) = s * s + 2 * s + 1 := by ring
  have e2 : (s + 2) * (s + 2) = s * s + 4 * s + 4 := by ring
  omega

/-- The guess is the integer root or one more. -/
theorem guess_within_one {n : Nat} (hn : 4 ≤ n) (hn2 : n < 2 ^ 64) :
    Nat.sqrt n ≤ f64SqrtTrunc (natToF64 n) ∧ f64SqrtTrunc (natToF64 n) ≤ Nat.sqrt n + 1 := by
  rcases Nat.lt_or_ge n.log2 53 with hl | hl
  · have : natToF64 n = n := by unfold natToF64; dsimp only; rw [if_pos hl]
    rw [this]
    exact f64SqrtTrunc_bounds n
  obtain ⟨p1, p2, p3⟩ := natToF64_near hl
  obtain ⟨X, hX⟩ : ∃ X, X = natToF64 n := ⟨_, rfl⟩
  obtain ⟨s, hs⟩ : ∃ s, s = Nat.sqrt n := ⟨_, rfl⟩
  obtain ⟨e, he⟩ : ∃ e, e = n.log2 := ⟨_, rfl⟩
  rw [← hX, ← he] at p1 p2 p3
  rw [← hX, ← hs]
  have hn0 : n ≠ 0 := by omega
  have a1 : 2 ^ e ≤ n := he ▸ Nat.log2_self_le hn0
  have a2 : n < 2 ^ (e + 1) := he ▸ Nat.lt_log2_self
  have e63 : e < 64 := he ▸ (Nat.log2_lt hn0).2 hn2
  have s1 : s * s ≤ n := hs ▸ Nat.sqrt_le n
  have s2 : n < (s + 1) * (s + 1) := hs ▸ Nat.lt_succ_sqrt n
  obtain ⟨h, hh⟩ : ∃ h, h = e / 2 := ⟨_, rfl⟩
  have hsh : 2 ^ h ≤ s := by
    rw [hs, Nat.le_sqrt, ← pow_add]
    exact le_trans (Nat.pow_le_pow_right (by norm_num) (by omega)) a1
  obtain ⟨u, hu⟩ : ∃ u, u = 2 ^ (e - 52) := ⟨_, rfl⟩
  rw [← hu] at p2 p3
  have hu2 : u ≤ 2 ^ 11 := hu ▸ Nat.pow_le_pow_right (by norm_num) (by omega)
  have hs26 : 2 ^ 26 ≤ s := le_trans (Nat.pow_le_pow_right (by norm_num) (by omega)) hsh
  -- `2^(e - h - 1) < s`, the half unit in the last place of the root against the root
  have hstrict : 2 ^ (e - h - 1) < s := by
    rcases Nat.even_or_odd' e with ⟨c, hc | hc⟩
    · exact lt_of_lt_of_le (Nat.pow_lt_pow_right (by norm_num) (by omega)) hsh
    · rw [show e - h - 1 = h by omega, ← Nat.succ_le_iff, hs, Nat.le_sqrt]
      refine le_trans ?_ a1
      rw [show e = h + h + 1 by omega, pow_succ, pow_add]
      have : 3 ≤ 2 ^ h := le_trans (by norm_num : 3 ≤ 2 ^ 2)
        (Nat.pow_le_pow_right (by norm_num) (by omega))
      exact guess_aux1 this
  unfold f64SqrtTrunc
  dsimp only
  obtain ⟨k, hk⟩ : ∃ k, k = 52 - X.log2 / 2 := ⟨_, rfl⟩
  obtain ⟨t, ht⟩ : ∃ t, t = Nat.sqrt (X * 4 ^ (k + 1)) := ⟨_, rfl⟩
  rw [← hk, ← ht]
  obtain ⟨b, hb⟩ : ∃ b, b = 2 ^ (k + 1) := ⟨_, rfl⟩
  have hb2 : b = 2 * 2 ^ k := by rw [hb, pow_succ]; ring
  have h4 : 4 ^ (k + 1) = b * b := by rw [hb, ← mul_pow]; norm_num
  have hkp : 0 < 2 ^ k := by positivity
  rw [h4] at ht
  constructor
  · have goal : (s * b - 1) * (s * b - 1) ≤ X * (b * b) := by
      rcases Nat.lt_or_ge X (s * s) with hc | hc
      · have hXe : X.log2 = e := by
          rw [Nat.log2_eq_iff (by have : 0 < 2 ^ e := by positivity
                                  omega)]
          exact ⟨p1, by omega⟩
        have hkh : k + h = 52 := by rw [hk, hXe]; omega
        -- `u * 2^k = 2 * 2^(e-h-1)`
        have hub : u * b = 2 * 2 * 2 ^ (e - h - 1) := by
          rw [hu, hb, ← pow_two, ← pow_add, ← pow_add]; congr 1; omega
        have g1 : u * b + 4 ≤ 4 * s := by rw [hub]; omega
        have hsb : 1 ≤ s * b := Nat.mul_pos (by omega) (by omega)
        obtain ⟨c, hc'⟩ : ∃ c, s * b = c + 1 := ⟨s * b - 1, by omega⟩
        rw [hc', Nat.add_sub_cancel]
        have g2 : 2 * (s * s) ≤ 2 * X + u := by omega
        exact guess_aux2 (by omega) g2 g1 hc'
      · calc (s * b - 1) * (s * b - 1) ≤ (s * b) * (s * b) :=
              Nat.mul_le_mul (Nat.sub_le _ _) (Nat.sub_le _ _)
          _ = s * s * (b * b) := by ring
          _ ≤ _ := Nat.mul_le_mul_right _ hc
    have g2 : s * b - 1 ≤ t := by rw [ht, Nat.le_sqrt]; exact goal
    rw [Nat.le_div_iff_mul_le hkp]
    have : s * b = 2 * (s * 2 ^ k) := by rw [hb2]; ring
    omega
  · have goal : X * (b * b) < ((s + 2) * b - 1) * ((s + 2) * b - 1) := by
      have hsb : 1 ≤ (s + 2) * b := Nat.mul_pos (by omega) (by omega)
      obtain ⟨c, hc'⟩ : ∃ c, (s + 2) * b = c + 1 := ⟨(s + 2) * b - 1, by omega⟩
      rw [hc', Nat.add_sub_cancel]
      exact guess_aux3 (by omega) (guess_aux4 hs26 hu2 p3 s2) hc'
    have g2 : t < (s + 2) * b - 1 := by rw [ht, Nat.sqrt_lt]; exact goal
    rw [← Nat.lt_succ_iff, Nat.div_lt_iff_lt_mul hkp]
    have : (s + 2) * b = 2 * ((s + 2) * 2 ^ k) := by rw [hb2]; ring
    rw [show (s + 1).succ = s + 2 from rfl]
    omega

end Fixnum
