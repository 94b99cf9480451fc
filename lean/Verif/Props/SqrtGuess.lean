import Verif.SqrtGuessBasic
import Verif.Props.Sqrt

/-!
# C99: the start value of the square root

With `std` the root of an integer of at most 64 bits starts from `(x as f64).sqrt() as $int`
(`/repo/src/ops/sqrt.rs:36`).  The model computes that with integers (`natToF64`, `f64SqrtTrunc`).
Here it is compared with IEEE 754, stated with the patterns of `FloatSpec.lean`, and with the root.
-/

namespace Fixnum

open Res Spec F64

namespace Spec

/-- `f` is an `f64` nearest to the real number `r` (which of two, if there are two, is left open). -/
def F64NearestReal (f : BitVec 64) (r : ℝ) : Prop :=
  f64Finite f ∧ ∀ g, f64Finite g → |(f64Value f : ℝ) - r| ≤ |(f64Value g : ℝ) - r|

end Spec

/-- C99: rounding to nearest, ties to even, determines the value. -/
theorem C99_nearest_unique {v : ℚ} (hv : |v| < 2 ^ 1023) :
    (∃ f, f64Nearest f v) ∧
      ∀ f g, f64Nearest f v → f64Nearest g v → f64Value f = f64Value g :=
  ⟨⟨_, ofRat_nearest hv⟩, fun f g hf hg => by
    rw [f64Nearest_value hv hf, f64Nearest_value hv hg]⟩

theorem ten_small : |((10 : Nat) : ℚ)| < 2 ^ 1023 := by
  rw [abs_of_nonneg (by norm_num)]
  exact lt_of_lt_of_le (by norm_num : ((10 : Nat) : ℚ) < 2 ^ 4)
    (pow_le_pow_right₀ (by norm_num) (by norm_num))
example := C99_nearest_unique ten_small

/-- C99: there is a nearest `f64` to every real number. -/
theorem C99_root_exists (r : ℝ) : ∃ f, F64NearestReal f r := by
  have : Finite (BitVec 64) :=
    Finite.of_injective (fun x : BitVec 64 => x.toFin) fun a b h => BitVec.eq_of_toFin_eq h
  obtain ⟨f, h1, h2⟩ := Set.exists_min_image {g : BitVec 64 | f64Finite g}
    (fun g => |(f64Value g : ℝ) - r|) (Set.toFinite _) ⟨0, by decide⟩
  exact ⟨f, h1, h2⟩

example := C99_root_exists (Real.sqrt 2)

/-- C99: `x as f64`. -/
theorem C99_convert {n : Nat} (h0 : 0 < n) (hn : n < 2 ^ 64) (f : BitVec 64) (hf : f64Nearest f n) :
    f64Value f = natToF64 n := by
  have hv : |((n : Nat) : ℚ)| < 2 ^ 1023 := by
    rw [abs_of_nonneg (Nat.cast_nonneg _)]
    have : (n : ℚ) < 2 ^ 64 := by exact_mod_cast hn
    exact lt_trans this (pow_lt_pow_right₀ (by norm_num) (by norm_num))
  rw [f64Nearest_value hv hf, natToF64_eq n h0 (lt_trans hn (by norm_num))]

example : ∃ f, f64Nearest f ((10 : Nat) : ℚ) ∧ f64Value f = natToF64 10 :=
  let ⟨f, hf⟩ := (C99_nearest_unique ten_small).1
  ⟨f, hf, C99_convert (by norm_num) (by norm_num) f hf⟩

theorem natToF64_range {n : Nat} (h0 : 0 < n) (hn : n < 2 ^ 64) :
    0 < natToF64 n ∧ natToF64 n < 2 ^ 106 := by
  have := natToF64_bounds n h0
  omega

/-- C99: with `std` the guess is the truncation of the `f64` nearest to the real root of the `f64`
nearest to the argument, whichever such `f64` the platform computes; and no cast saturates. -/
theorem C99_guess_std {cfg : Cfg} (hstd : cfg.std = true) {t : IntTy}
    (ht : t.bits = 8 ∨ t.bits = 16 ∨ t.bits = 32 ∨ t.bits = 64) {n : Nat} (hn : 4 ≤ n)
    (hnt : (n : Int) ≤ t.max) {f r : BitVec 64} (hf : f64Nearest f n)
    (hr : F64NearestReal r (Real.sqrt (f64Value f : ℝ))) :
    (sqrtGuess cfg t n : Res ε Int) = .ok ⌊f64Value r⌋ ∧ 0 ≤ ⌊f64Value r⌋ ∧ ⌊f64Value r⌋ ≤ t.max := by
  have hn64 : n < 2 ^ 64 := by
    have : t.max < 2 ^ 64 := by
      obtain ⟨s, b⟩ := t
      simp only at ht
      rcases ht with rfl | rfl | rfl | rfl <;> cases s <;> norm_num [IntTy.max]
    exact_mod_cast lt_of_le_of_lt hnt this
  have hc := C99_convert (by omega) hn64 f hf
  obtain ⟨x0, x1⟩ := natToF64_range (by omega) hn64
  have hroot : ⌊f64Value r⌋ = f64SqrtTrunc (natToF64 n) := by
    refine f64SqrtTrunc_eq x0 x1 fun g hg => ?_
    have := hr.2 g hg
    rw [hc] at this
    push_cast at this
    exact this
  rw [hroot]
  refine ⟨?_, by positivity, ?_⟩
  · unfold sqrtGuess
    rw [if_pos hstd, Int.toNat_natCast]
  · have h1 := (guess_within_one hn hn64).2
    have h2 : Nat.sqrt n + 1 ≤ n := by
      have h3 : Nat.sqrt n < n := Nat.sqrt_lt_self (by omega)
      omega
    exact le_trans (by exact_mod_cast le_trans h1 h2) hnt

example : ∃ f r, f64Nearest f ((10 : Nat) : ℚ) ∧ F64NearestReal r (Real.sqrt (f64Value f : ℝ)) ∧
    (sqrtGuess debugCfg ⟨true, 8⟩ (10 : Nat) : Res Unit Int) = .ok ⌊f64Value r⌋ :=
  let ⟨f, hf⟩ := (C99_nearest_unique ten_small).1
  let ⟨r, hr⟩ := C99_root_exists (Real.sqrt (f64Value f : ℝ))
  ⟨f, r, hf, hr, (C99_guess_std rfl (.inl rfl) (by norm_num) (by decide +kernel) hf hr).1⟩

/-- C99: that guess is the integer root, or one more. -/
theorem C99_within_one {cfg : Cfg} (hstd : cfg.std = true) (t : IntTy) {n : Nat} (hn : 4 ≤ n)
    (hn2 : n < 2 ^ 64) : ∃ g : Nat, (sqrtGuess cfg t n : Res ε Int) = .ok (g : Int) ∧
      (g - 1) ^ 2 ≤ n ∧ n < (g + 1) ^ 2 := by
  obtain ⟨h1, h2⟩ := guess_within_one hn hn2
  refine ⟨f64SqrtTrunc (natToF64 n), ?_, ?_, ?_⟩
  · unfold sqrtGuess
    rw [if_pos hstd, Int.toNat_natCast]
  · rw [pow_two]
    exact le_trans (Nat.mul_le_mul (by omega) (by omega)) (Nat.sqrt_le n)
  · rw [pow_two]
    exact lt_of_lt_of_le (Nat.lt_succ_sqrt n) (Nat.mul_le_mul (by omega) (by omega))

example := C99_within_one (ε := Unit) (cfg := debugCfg) rfl ⟨false, 64⟩ (n := 2 ^ 64 - 1)
  (by norm_num) (by norm_num)

/-- C99: without `std` the guess is a power of two within a factor `√2` of the root. -/
theorem C99_guess_nostd {cfg : Cfg} (hstd : cfg.std = false) {t : IntTy}
    (ht : t.bits = 8 ∨ t.bits = 16 ∨ t.bits = 32 ∨ t.bits = 64) {n : Nat} (hn : 4 ≤ n)
    (hnt : (n : Int) ≤ t.max) : ∃ k : Nat, (sqrtGuess cfg t n : Res ε Int) = .ok (2 ^ k : Nat) ∧
      (2 ^ k) ^ 2 ≤ 2 * n ∧ n < 2 * (2 ^ k) ^ 2 ∧ ((2 ^ k : Nat) : Int) ≤ t.max := by
  have a1 : 2 ^ n.log2 ≤ n := Nat.log2_self_le (by omega)
  have a2 : n < 2 ^ (n.log2 + 1) := Nat.lt_log2_self
  have hl : 2 ≤ n.log2 := (Nat.le_log2 (by omega)).2 (by omega)
  obtain ⟨k, hk⟩ : ∃ k, k = (n.log2 + 1) / 2 := ⟨_, rfl⟩
  have hkn : 2 ^ k ≤ n := le_trans (Nat.pow_le_pow_right (by norm_num) (by omega)) a1
  have hmax : ((2 ^ k : Nat) : Int) ≤ t.max := le_trans (by exact_mod_cast hkn) hnt
  refine ⟨k, ?_, ?_, ?_, hmax⟩
  · have hw : t.wrap ((2 ^ k : Nat) : Int) = (2 ^ k : Nat) := by
      have hp : (0 : Int) ≤ (2 ^ k : Nat) := by positivity
      obtain ⟨s, b⟩ := t
      simp only at ht
      unfold IntTy.wrap
      cases s
      · simp only [Bool.false_eq_true, if_false]
        refine Int.emod_eq_of_lt hp ?_
        unfold IntTy.max at hmax
        simp only [Bool.false_eq_true, if_false] at hmax
        omega
      · simp only [if_true]
        unfold IntTy.max at hmax
        simp only [if_true] at hmax
        rcases ht with rfl | rfl | rfl | rfl
        all_goals
          norm_num at hmax
          norm_num only [Int.bmod]
          push_cast at hp ⊢
          omega
    have hda : (debugAssert cfg (decide ((0 : Int) < n)) : Res ε Unit) = .ok () := by
      unfold debugAssert
      rw [decide_eq_true (by exact_mod_cast (by omega : 0 < n))]
      simp
    unfold sqrtGuess
    rw [hstd, if_neg (by simp), hda, ok_bind]
    dsimp only
    rw [Int.toNat_natCast, ← hk]
    push_cast at hw ⊢
    rw [hw]
  · rw [← pow_mul]
    calc 2 ^ (k * 2) ≤ 2 ^ (n.log2 + 1) := Nat.pow_le_pow_right (by norm_num) (by omega)
      _ = 2 * 2 ^ n.log2 := by rw [pow_succ]; ring
      _ ≤ 2 * n := Nat.mul_le_mul_left _ a1
  · rw [← pow_mul, ← pow_succ']
    exact lt_of_lt_of_le a2 (Nat.pow_le_pow_right (by norm_num) (by omega))

example := C99_guess_nostd (ε := Unit) (cfg := ⟨true, true, false, true⟩) rfl (t := ⟨true, 8⟩)
  (.inl rfl) (n := 100) (by norm_num) (by decide +kernel)

/-- C99: from such a guess at most three evaluations of the step give the root: one before the loops
and at most one in each loop (two tests each). -/
theorem C99_three_steps (cfg : Cfg) {t : IntTy}
    (ht : t.bits = 8 ∨ t.bits = 16 ∨ t.bits = 32 ∨ t.bits = 64) {n : Nat} (hn : 4 ≤ n)
    (hnt : (n : Int) ≤ t.max) {g : Nat} (h1 : (g - 1) ^ 2 ≤ n) (h2 : n < (g + 1) ^ 2) :
    ∃ s : Nat, s ^ 2 ≤ n ∧ n < (s + 1) ^ 2 ∧
      ((do
        let xn ← sqrtNext cfg t n g
        let st ← fixpointUp cfg t n 2 g xn
        fixpointDown cfg t n 2 st.1 st.2) : Res ε Int) = .ok (s : Int) := by
  have hmin : t.min ≤ 0 := by
    unfold IntTy.min
    split
    · exact neg_nonpos.2 (by positivity)
    · rfl
  have hlow : 127 ≤ t.max := by
    obtain ⟨s, b⟩ := t
    simp only at ht
    rcases ht with rfl | rfl | rfl | rfl <;> cases s <;> norm_num [IntTy.max]
  obtain ⟨s, hs⟩ : ∃ s, s = Nat.sqrt n := ⟨_, rfl⟩
  have s1 : s * s ≤ n := hs ▸ Nat.sqrt_le n
  have s2 : n < (s + 1) * (s + 1) := hs ▸ Nat.lt_succ_sqrt n
  have hs2 : 2 ≤ s := by rw [hs, Nat.le_sqrt]; omega
  have hg : g = s ∨ g = s + 1 := by
    have g1 : g - 1 ≤ s := by rw [hs, Nat.le_sqrt, ← pow_two]; exact h1
    have g2 : s < g + 1 := by rw [hs, Nat.sqrt_lt, ← pow_two]; exact h2
    omega
  have e0 : newton n s = s ∨ newton n s = s + 1 := by
    have a := newton_self n (by omega)
    have b := newton_ge n s (by omega)
    rw [← hs] at a b
    omega
  have e1 : newton n (s + 1) = s := by
    have a := newton_lt (n := n) (x := s + 1) (by omega)
    have b := newton_ge n (s + 1) (by omega)
    omega
  have hroom : ((2 * s + 2 : Nat) : Int) ≤ t.max := by
    rcases Nat.lt_or_ge s 3 with h | h
    · exact le_trans (by exact_mod_cast (by omega : 2 * s + 2 ≤ 127)) hlow
    · have : 3 * s ≤ s * s := Nat.mul_le_mul_right _ h
      exact le_trans (by exact_mod_cast (by omega : 2 * s + 2 ≤ n)) hnt
  have n0 : (sqrtNext cfg t n s : Res ε Int) = .ok (newton n s : Nat) := by
    refine sqrtNext_spec cfg t hmin n s (by omega) (le_trans ?_ hroom)
    have := div_self_le n (by omega)
    rw [← hs] at this
    exact_mod_cast (by omega : n / s + s ≤ 2 * s + 2)
  have n1 : (sqrtNext cfg t n ((s : Int) + 1) : Res ε Int) = .ok (s : Int) := by
    have := sqrtNext_spec (ε := ε) cfg t hmin n (s + 1) (by omega) (le_trans (by
      have := div_le_sqrt (n := n) (x := s + 1) (by omega)
      exact_mod_cast (by omega : n / (s + 1) + (s + 1) ≤ 2 * s + 2)) hroom)
    rw [e1] at this
    push_cast at this
    exact this
  refine ⟨s, by rw [pow_two]; exact s1, by rw [pow_two]; exact s2, ?_⟩
  rcases hg with rfl | rfl
  · rw [n0, ok_bind]
    rcases e0 with e0 | e0
    · rw [e0]
      simp [fixpointUp, fixpointDown, ok_bind]
    · rw [e0] at n0 ⊢
      push_cast at n0 ⊢
      simp [fixpointUp, fixpointDown, ok_bind, n0, n1]
  · push_cast
    rw [n1, ok_bind]
    rcases e0 with e0 | e0 <;> rw [e0] at n0 <;> push_cast at n0 <;>
      simp [fixpointUp, fixpointDown, ok_bind, n0]

example := C99_three_steps (ε := Unit) debugCfg (t := ⟨false, 64⟩) (by decide) (n := 1000) (by decide) (by decide +kernel)
  (g := 32) (by decide) (by decide)

/-! ## Non-vacuity -/

-- `2^64 - 1` is not an `f64`: it is rounded to `2^64`, and the guess is one more than the root
example : natToF64 (2 ^ 64 - 1) = 2 ^ 64 ∧ Nat.sqrt (2 ^ 64 - 1) + 1 = 2 ^ 32 ∧
    (sqrtGuess debugCfg ⟨false, 64⟩ ((2 ^ 64 - 1 : Nat) : Int) : Res Unit Int) = .ok (2 ^ 32) := by
  decide +kernel
example : debugCfg.std = true ∧ ((2 ^ 64 - 1 : Nat) : Int) ≤ IntTy.max ⟨false, 64⟩ := by
  decide +kernel
-- the values are attained
example : ∃ f r, f64Nearest f ((10 : Nat) : ℚ) ∧ F64NearestReal r (Real.sqrt (f64Value f : ℝ)) ∧
    ⌊f64Value r⌋ = 3 := by
  obtain ⟨f, hf⟩ := (C99_nearest_unique (v := ((10 : Nat) : ℚ)) (by
    rw [abs_of_nonneg (by norm_num)]
    exact lt_of_lt_of_le (by norm_num : ((10 : Nat) : ℚ) < 2 ^ 4)
      (pow_le_pow_right₀ (by norm_num) (by norm_num)))).1
  obtain ⟨r, hr⟩ := C99_root_exists (Real.sqrt (f64Value f : ℝ))
  refine ⟨f, r, hf, hr, ?_⟩
  have h := (C99_guess_std (ε := Unit) (cfg := debugCfg) rfl (t := ⟨false, 64⟩) (by simp)
    (n := 10) (by norm_num) (by decide +kernel) hf hr).1
  have h2 : (sqrtGuess debugCfg ⟨false, 64⟩ ((10 : Nat) : Int) : Res Unit Int) = .ok 3 := by
    decide +kernel
  rw [h2] at h
  injection h with h
  exact h.symm
example : |(3 : ℚ) / 10| < 2 ^ 1023 := by
  rw [abs_of_pos (by norm_num)]
  exact lt_of_lt_of_le (by norm_num : (3 : ℚ) / 10 < 1) (one_le_pow₀ (by norm_num))
example : (Cfg.mk true true false true).std = false ∧
    (sqrtGuess ⟨true, true, false, true⟩ ⟨true, 8⟩ ((100 : Nat) : Int) : Res Unit Int) =
      .ok (2 ^ 3 : Nat) := by
  decide +kernel
example : (4 - 1) ^ 2 ≤ 15 ∧ 15 < (4 + 1) ^ 2 ∧ ((15 : Nat) : Int) ≤ IntTy.max ⟨true, 8⟩ := by
  decide +kernel

end Fixnum
