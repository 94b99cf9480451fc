import Verif.RsqrtBasic
import Verif.Props.Rounding
import Mathlib.Analysis.Real.Sqrt

/-! # Properties C22, C23: the square root -/

namespace Fixnum

open Res Spec

variable {L : Layout} {P : Nat} {ε : Type}

/-! ## C22 -/

/-- `s` is `√q` rounded to a multiple of `10^-P` in the given direction. `√` is the real square
root.  (The exact root is never half-way between two multiples, so `nearest` needs no tie rule:
the bound is strict.) -/
def IsRoundedSqrt (P : Nat) (mode : RoundMode) (q s : ℚ) : Prop :=
  (∃ n : Int, s = n / 10 ^ P) ∧
  match mode with
  | .floor => (s : ℝ) ≤ √(q : ℝ) ∧ √(q : ℝ) < s + 1 / 10 ^ P
  | .ceil => (s : ℝ) - 1 / 10 ^ P < √(q : ℝ) ∧ √(q : ℝ) ≤ s
  | .nearest => |(s : ℝ) - √(q : ℝ)| < 1 / 2 / 10 ^ P

/-- The direction determines the rounded root. -/
theorem C22_unique (P : Nat) (mode : RoundMode) (q s t : ℚ) (hs : IsRoundedSqrt P mode q s)
    (ht : IsRoundedSqrt P mode q t) : s = t := by
  obtain ⟨⟨n, rfl⟩, h1⟩ := hs
  obtain ⟨⟨m, rfl⟩, h2⟩ := ht
  have hp : (0 : ℝ) < 10 ^ P := by positivity
  have key : |(n : ℝ) / 10 ^ P - m / 10 ^ P| < 1 / 10 ^ P → n = m := by
    intro h
    rw [← sub_div, abs_div, abs_of_pos hp, div_lt_div_iff_of_pos_right hp] at h
    have h' : |n - m| < 1 := by exact_mod_cast h
    rw [Int.abs_lt_one_iff] at h'
    omega
  have : n = m := by
    apply key
    cases mode
    · dsimp only at h1 h2
      push_cast at h1 h2
      rw [abs_lt]; constructor <;> linarith [h1.1, h1.2, h2.1, h2.2]
    · dsimp only at h1 h2
      push_cast at h1 h2
      rw [abs_lt] at h1 h2 ⊢
      have : (1 : ℝ) / 10 ^ P = 1 / 2 / 10 ^ P + 1 / 2 / 10 ^ P := by ring
      constructor <;> linarith [h1.1, h1.2, h2.1, h2.2]
    · dsimp only at h1 h2
      push_cast at h1 h2
      rw [abs_lt]; constructor <;> linarith [h1.1, h1.2, h2.1, h2.2]
  rw [this]

example (h : IsRoundedSqrt 9 .floor 2 (value (⟨1414213562⟩ : FP .i64 9))) (t : ℚ)
    (ht : IsRoundedSqrt 9 .floor 2 t) := C22_unique 9 .floor 2 _ t h ht

theorem sqrt_scaled (n : Nat) (P : Nat) (r : Int) (h : (n : Int) = r * 10 ^ P) :
    √(((r : ℚ) / 10 ^ P : ℚ) : ℝ) = √(n : ℝ) / 10 ^ P := by
  have hp : (0 : ℝ) < 10 ^ P := by positivity
  have h' : (n : ℝ) = r * 10 ^ P := by exact_mod_cast h
  have : (((r : ℚ) / 10 ^ P : ℚ) : ℝ) = (n : ℝ) / (10 ^ P * 10 ^ P) := by
    push_cast; rw [h']; field_simp
  rw [this, Real.sqrt_div (by positivity), Real.sqrt_mul_self hp.le]

theorem sqrtRaw_real (mode : RoundMode) (n : Nat) :
    match mode with
    | .floor => (sqrtRaw mode n : ℝ) ≤ √(n : ℝ) ∧ √(n : ℝ) < sqrtRaw mode n + 1
    | .ceil => (sqrtRaw mode n : ℝ) - 1 < √(n : ℝ) ∧ √(n : ℝ) ≤ sqrtRaw mode n
    | .nearest => |(sqrtRaw mode n : ℝ) - √(n : ℝ)| < 1 / 2 := by
  have h1 : Nat.sqrt n * Nat.sqrt n ≤ n := Nat.sqrt_le n
  have h2 : n < (Nat.sqrt n + 1) * (Nat.sqrt n + 1) := Nat.lt_succ_sqrt n
  generalize hs : Nat.sqrt n = s at *
  have r1 : (s : ℝ) * s ≤ n := by exact_mod_cast h1
  have r2 : (n : ℝ) < (s + 1) * (s + 1) := by exact_mod_cast h2
  have hs0 : (0 : ℝ) ≤ s := by positivity
  have l1 : (s : ℝ) ≤ √(n : ℝ) := by
    apply Real.le_sqrt_of_sq_le; nlinarith
  have l2 : √(n : ℝ) < s + 1 := by
    rw [Real.sqrt_lt' (by positivity)]; nlinarith
  cases mode
  · unfold sqrtRaw
    dsimp only
    rw [hs]
    split
    · rename_i h
      have e : √(n : ℝ) = s := by
        rw [← h]; push_cast; exact Real.sqrt_mul_self hs0
      rw [e]; constructor <;> linarith
    · rename_i h
      have h3 : s * s < n := by omega
      have r3 : (s : ℝ) * s < n := by exact_mod_cast h3
      have l3 : (s : ℝ) < √(n : ℝ) := by
        apply Real.lt_sqrt_of_sq_lt; nlinarith
      push_cast
      constructor <;> linarith
  · unfold sqrtRaw
    dsimp only
    rw [hs]
    split
    · rename_i h
      have h3 : s * s + s + 1 ≤ n := by omega
      have r3 : (s : ℝ) * s + s + 1 ≤ n := by exact_mod_cast h3
      have l3 : (s : ℝ) + 1 / 2 < √(n : ℝ) := by
        apply Real.lt_sqrt_of_sq_lt; nlinarith
      push_cast
      rw [abs_lt]; constructor <;> linarith
    · rename_i h
      have h3 : n ≤ s * s + s := by omega
      have r3 : (n : ℝ) ≤ s * s + s := by exact_mod_cast h3
      have l3 : √(n : ℝ) < (s : ℝ) + 1 / 2 := by
        rw [Real.sqrt_lt' (by positivity)]; nlinarith
      rw [abs_lt]; constructor <;> linarith
  · unfold sqrtRaw
    dsimp only
    rw [hs]
    exact ⟨l1, l2⟩

theorem value_nonneg_iff (a : FP L P) : 0 ≤ value a ↔ 0 ≤ a.inner.toInt := by
  unfold value
  rw [le_div_iff₀ (ten_pow_pos P), zero_mul]
  exact_mod_cast Iff.rfl

/-- C22: for every non-negative number `rsqrt` returns the correctly rounded square root; it never
overflows, never panics and always terminates — for every layout, precision and build. -/
theorem C22_rsqrt {cfg : Cfg} (hv : Valid cfg L P) (a : FP L P) (ha : 0 ≤ value a)
    (mode : RoundMode) :
    ∃ s, FP.rsqrt cfg a mode = .ok s ∧ IsRoundedSqrt P mode (value a) (value s) := by
  have h0 := (value_nonneg_iff a).1 ha
  obtain ⟨hf, he⟩ := rsqrt_spec hv a h0 mode
  refine ⟨_, he, ?_⟩
  rw [value_ofInt hf]
  obtain ⟨n, hn⟩ := Int.eq_ofNat_of_zero_le (show 0 ≤ a.inner.toInt * 10 ^ P by positivity)
  have e0 : (a.inner.toInt * 10 ^ P).toNat = n := by rw [hn]; rfl
  rw [e0]
  refine ⟨⟨_, rfl⟩, ?_⟩
  have hp : (0 : ℝ) < 10 ^ P := by positivity
  have hs := sqrt_scaled n P a.inner.toInt hn.symm
  have hr := sqrtRaw_real mode n
  unfold value
  rw [hs]
  generalize √(n : ℝ) = t at *
  cases mode
  · dsimp only at hr ⊢
    push_cast
    rw [← sub_div, div_lt_div_iff_of_pos_right hp, div_le_div_iff_of_pos_right hp]
    exact hr
  · dsimp only at hr ⊢
    push_cast
    rw [← sub_div, abs_div, abs_of_pos hp, div_lt_div_iff_of_pos_right hp]
    exact hr
  · dsimp only at hr ⊢
    push_cast
    rw [← add_div, div_lt_div_iff_of_pos_right hp, div_le_div_iff_of_pos_right hp]
    exact hr

example := C22_rsqrt (cfg := debugCfg) (by decide) (⟨2000000000⟩ : FP .i64 9) (by decide +kernel)
  .floor
-- the hypotheses of `C22_unique`
example : IsRoundedSqrt 9 .floor 2 (value (⟨1414213562⟩ : FP .i64 9)) := by
  obtain ⟨s, h1, h2⟩ := C22_rsqrt (cfg := debugCfg) (by decide) (⟨2000000000⟩ : FP .i64 9)
    (by decide +kernel) .floor
  have h3 : FP.rsqrt debugCfg (⟨2000000000⟩ : FP .i64 9) .floor = .ok ⟨1414213562⟩ := by
    decide +kernel
  have h4 : value (⟨2000000000⟩ : FP .i64 9) = 2 := by decide +kernel
  rw [h3] at h1
  cases h1
  rwa [h4] at h2

/-- C22: `DomainViolation` exactly for negative numbers. -/
theorem C22_rsqrt_domain {cfg : Cfg} (hv : Valid cfg L P) (a : FP L P) (mode : RoundMode) :
    FP.rsqrt cfg a mode = .err .domainViolation ↔ value a < 0 := by
  constructor
  · intro h
    by_contra hc
    obtain ⟨s, hs, _⟩ := C22_rsqrt hv a (not_lt.1 hc) mode
    rw [hs] at h; cases h
  · intro h
    apply rsqrt_neg
    by_contra hc
    exact absurd ((value_nonneg_iff a).2 (not_lt.1 hc)) (not_le.2 h)

example := C22_rsqrt_domain (cfg := debugCfg) (by decide) (⟨-1⟩ : FP .i64 9) .ceil

/-- C22: a root that is representable is returned in every direction.  (The converse is in C55.) -/
theorem C22_rsqrt_exact {cfg : Cfg} (hv : Valid cfg L P) (a s : FP L P) (hs : 0 ≤ value s)
    (h : value s * value s = value a) (mode : RoundMode) : FP.rsqrt cfg a mode = .ok s := by
  have ha : 0 ≤ value a := by rw [← h]; exact mul_self_nonneg _
  obtain ⟨t, ht, hr⟩ := C22_rsqrt hv a ha mode
  rw [ht]
  congr 1
  apply value_inj
  refine C22_unique P mode (value a) _ _ hr ⟨⟨s.inner.toInt, rfl⟩, ?_⟩
  have hp : (0 : ℝ) < 10 ^ P := by positivity
  have e : √((value a : ℚ) : ℝ) = (value s : ℚ) := by
    rw [← h]; push_cast; exact Real.sqrt_mul_self (by exact_mod_cast hs)
  have h1 : (0 : ℝ) < 1 / 10 ^ P := by positivity
  have h2 : (0 : ℝ) < 1 / 2 / 10 ^ P := by positivity
  rw [e]
  cases mode
  · dsimp only; constructor <;> linarith
  · dsimp only; rw [sub_self, abs_zero]; exact h2
  · dsimp only; constructor <;> linarith

example := C22_rsqrt_exact (cfg := debugCfg) (by decide) (⟨81000000000⟩ : FP .i64 9) ⟨9000000000⟩ (by decide +kernel)
  (by decide +kernel) .ceil

example : Valid debugCfg .i64 9 ∧ Valid debugCfg .i128 38 ∧ Valid debugCfg .i16 0 := by decide
example : 0 ≤ value (⟨2000000000⟩ : FP .i64 9) ∧ value (⟨-1⟩ : FP .i64 9) < 0 := by
  rw [value_eq _ 2000000000 (by decide), value_eq _ (-1) (by decide)]; norm_num
example : FP.rsqrt debugCfg (⟨2000000000⟩ : FP .i64 9) .floor = .ok ⟨1414213562⟩ ∧
    FP.rsqrt debugCfg (⟨2000000000⟩ : FP .i64 9) .nearest = .ok ⟨1414213562⟩ ∧
    FP.rsqrt debugCfg (⟨2000000000⟩ : FP .i64 9) .ceil = .ok ⟨1414213563⟩ ∧
    FP.rsqrt debugCfg (⟨81000000000⟩ : FP .i64 9) .ceil = .ok ⟨9000000000⟩ ∧
    FP.rsqrt releaseCfg (⟨2000000000000000000⟩ : FP .i128 18) .floor = .ok ⟨1414213562373095048⟩ ∧
    FP.rsqrt debugCfg (⟨-1⟩ : FP .i64 9) .floor = .err .domainViolation := by decide +kernel
example : 0 ≤ value (⟨9000000000⟩ : FP .i64 9) ∧
    value (⟨9000000000⟩ : FP .i64 9) * value (⟨9000000000⟩ : FP .i64 9)
      = value (⟨81000000000⟩ : FP .i64 9) := by
  rw [value_eq _ 9000000000 (by decide), value_eq _ 81000000000 (by decide)]; norm_num

/-! ## C23 -/

/-- C23: the result does not depend on whether the floating-point guess (`std`) or the bit-length
guess is used, nor on any other build setting. -/
theorem C23_rsqrt_std_independent {cfg cfg' : Cfg} (hv : Valid cfg L P) (hv' : Valid cfg' L P)
    (a : FP L P) (mode : RoundMode) : FP.rsqrt cfg a mode = FP.rsqrt cfg' a mode := by
  by_cases h : 0 ≤ a.inner.toInt
  · rw [(rsqrt_spec hv a h mode).2, (rsqrt_spec hv' a h mode).2]
  · rw [rsqrt_neg cfg a (not_le.1 h) mode, rsqrt_neg cfg' a (not_le.1 h) mode]

example := C23_rsqrt_std_independent (cfg := ⟨true, true, true, true⟩)
  (cfg' := ⟨true, true, false, true⟩) (by decide) (by decide) (⟨2000000000⟩ : FP .i64 9) .floor

/-- C23: Newton's iteration reaches `⌊√n⌋` from every initial guess `g ≥ 1` for which the first
step does not overflow the type.  `n ≥ 1` as in the code, where `n ≥ 4`; the iteration runs on the
types of at most 64 bits. -/
theorem C23_any_guess (cfg : Cfg) (t : IntTy) (ht : 8 ≤ t.bits ∧ t.bits ≤ 64) (n g : Nat)
    (hn : 1 ≤ n) (hnt : (n : Int) ≤ t.max) (hg : 1 ≤ g)
    (hM : ((g + n / g : Nat) : Int) ≤ t.max) :
    ∃ s : Nat, (fixpoint cfg t n g : Res ε Int) = .ok (s : Int) ∧ s ^ 2 ≤ n ∧ n < (s + 1) ^ 2 := by
  have hmin : t.min ≤ 0 := by
    unfold IntTy.min
    split
    · exact neg_nonpos.2 (by positivity)
    · rfl
  have hlow : 127 ≤ t.max := by
    unfold IntTy.max
    split
    · have : (2 : Int) ^ 7 ≤ 2 ^ (t.bits - 1) := pow_le_pow_right₀ (by norm_num) (by omega)
      omega
    · have : (2 : Int) ^ 8 ≤ 2 ^ t.bits := pow_le_pow_right₀ (by norm_num) (by omega)
      omega
  have hhigh : t.max < 2 ^ 64 := by
    unfold IntTy.max
    split
    · have : (2 : Int) ^ (t.bits - 1) ≤ 2 ^ 64 := pow_le_pow_right₀ (by norm_num) (by omega)
      omega
    · have : (2 : Int) ^ t.bits ≤ 2 ^ 64 := pow_le_pow_right₀ (by norm_num) (by omega)
      omega
  have hs := Nat.sqrt_le n
  have hroot : ((2 * Nat.sqrt n + 2 : Nat) : Int) ≤ t.max := by
    rcases Nat.lt_or_ge (Nat.sqrt n) 3 with h | h
    · refine le_trans ?_ hlow
      exact_mod_cast (by omega : 2 * Nat.sqrt n + 2 ≤ 127)
    · refine le_trans ?_ hnt
      have : 3 * Nat.sqrt n ≤ Nat.sqrt n * Nat.sqrt n := Nat.mul_le_mul_right _ h
      exact_mod_cast (by omega : 2 * Nat.sqrt n + 2 ≤ n)
  refine ⟨Nat.sqrt n, fixpoint_spec cfg t hmin n g (by rw [Nat.sqrt_pos]; exact hn) hg hroot
    (by rw [Nat.add_comm]; exact hM) ?_, ?_, ?_⟩
  · have : ((g + n / g : Nat) : Int) < 2 ^ 64 := lt_of_le_of_lt hM hhigh
    have : g + n / g < 2 ^ 64 := by exact_mod_cast this
    omega
  · rw [pow_two]; exact Nat.sqrt_le n
  · rw [pow_two]; exact Nat.lt_succ_sqrt n

example := C23_any_guess (ε := Unit) debugCfg ⟨false, 64⟩ (by decide) 1000000 1 (by decide) (by decide +kernel) (by decide)
  (by decide +kernel)

example : FP.rsqrt ⟨true, true, true, true⟩ (⟨2000000000⟩ : FP .i64 9) .floor
    = FP.rsqrt ⟨true, true, false, true⟩ (⟨2000000000⟩ : FP .i64 9) .floor := by decide +kernel
example : Valid ⟨true, true, true, true⟩ .i64 9 ∧ Valid ⟨true, true, false, true⟩ .i64 9 := by
  decide
example : ((1 + 1000000 / 1 : Nat) : Int) ≤ IntTy.max ⟨false, 64⟩ ∧
    (fixpoint debugCfg ⟨false, 64⟩ (1000000 : Nat) (1 : Nat) : Res Unit Int) = .ok 1000 := by
  decide +kernel
-- the condition is sharp: one more overflows
example : ((126 + 126 / 126 : Nat) : Int) ≤ IntTy.max ⟨true, 8⟩ ∧
    (fixpoint debugCfg ⟨true, 8⟩ (126 : Nat) (126 : Nat) : Res Unit Int) = .ok 11 ∧
    (fixpoint debugCfg ⟨true, 8⟩ (127 : Nat) (127 : Nat) : Res Unit Int) = .panic := by
  decide +kernel

/-! ## C77 -/

/-- The ten types of `impl_sqrt!`. -/
def IsPrimTy (t : IntTy) : Prop :=
  t.bits = 8 ∨ t.bits = 16 ∨ t.bits = 32 ∨ t.bits = 64 ∨ t.bits = 128

/-- C77: the internal square root of the ten primitive types is the integer square root.
Missing: `i128` from `13043817825332782212²` on, see `C77_isqrt_i128_false`. -/
theorem C77_isqrt_partial (cfg : Cfg) (t : IntTy) (ht : IsPrimTy t) (n : Nat)
    (hn : (n : Int) ≤ t.max) (hl : t = ⟨true, 128⟩ → n < 13043817825332782212 ^ 2) :
    ∃ s : Nat, (sqrtPrim cfg t n : Res ε Int) = .ok (s : Int) ∧ s ^ 2 ≤ n ∧ n < (s + 1) ^ 2 := by
  have key : (sqrtPrim cfg t n : Res ε Int) = .ok (Nat.sqrt n : Nat) := by
    rcases ht with h | h | h | h | h
    · unfold sqrtPrim; rw [if_neg (by omega)]; exact sqrtSmall_spec8 cfg t h n hn
    · unfold sqrtPrim; rw [if_neg (by omega)]; exact sqrtSmall_spec cfg t (.inl h) n hn
    · unfold sqrtPrim; rw [if_neg (by omega)]; exact sqrtSmall_spec cfg t (.inr (.inl h)) n hn
    · unfold sqrtPrim; rw [if_neg (by omega)]; exact sqrtSmall_spec cfg t (.inr (.inr h)) n hn
    · obtain ⟨s, b⟩ := t
      simp only at h
      subst h
      cases s
      · refine sqrtPrim_u128 cfg n ?_
        norm_num [IntTy.max] at hn ⊢
        omega
      · exact sqrtPrim_i128_exact cfg n (hl rfl)
  exact ⟨_, key, by rw [pow_two]; exact Nat.sqrt_le n, by rw [pow_two]; exact Nat.lt_succ_sqrt n⟩

example := C77_isqrt_partial (ε := Unit) debugCfg ⟨false, 8⟩ (.inl rfl) 255 (by decide +kernel)
  (fun h => by cases h)

/-- C77, what `i128` does on the remaining arguments: the trial square overflows, which is a panic, or
without overflow checks a result that is one too large. -/
theorem C77_isqrt_i128_false (cfg : Cfg) (n : Nat) (hn : 13043817825332782212 ^ 2 ≤ n)
    (hn2 : n < 2 ^ 127) :
    (sqrtPrim cfg ⟨true, 128⟩ n : Res ε Int) =
        (if cfg.overflowChecks then .panic else .ok 13043817825332782213) ∧
      n < 13043817825332782213 ^ 2 := by
  refine ⟨sqrtPrim_i128_overflow cfg n hn hn2, ?_⟩
  norm_num at hn2 ⊢
  omega

example := C77_isqrt_i128_false (ε := Unit) debugCfg (2 ^ 127 - 1) (by norm_num) (by norm_num)

/-- C77: the arguments of `rsqrt` stay far below that bound: on `i64` the radicand of the `i128` root
is below `2^123`, and `i128` uses the unsigned root. -/
theorem C77_radicand {cfg : Cfg} (hv : Valid cfg .i64 P) (a : FP .i64 P) :
    a.inner.toInt * 10 ^ P < 2 ^ 123 ∧ (2 : Int) ^ 123 < 13043817825332782212 ^ 2 := by
  refine ⟨?_, by norm_num⟩
  have h1 : a.inner.toInt < 2 ^ 63 := by
    have := BitVec.toInt_lt (x := a.inner)
    exact lt_of_lt_of_eq this (by norm_num [Layout.bits])
  have hP : P ≤ 18 := by
    have h : (10 : Int) ^ P ≤ rawMax .i64 := hv.1
    by_contra hc
    have h2 : (10 : Int) ^ 19 ≤ 10 ^ P := pow_le_pow_right₀ (by norm_num) (by omega)
    have h3 : rawMax .i64 < 10 ^ 19 := by decide +kernel
    omega
  have h2 : (10 : Int) ^ P ≤ 10 ^ 18 := pow_le_pow_right₀ (by norm_num) hP
  calc a.inner.toInt * 10 ^ P ≤ 2 ^ 63 * 10 ^ P :=
        mul_le_mul_of_nonneg_right h1.le (by positivity)
    _ ≤ 2 ^ 63 * 10 ^ 18 := mul_le_mul_of_nonneg_left h2 (by norm_num)
    _ < 2 ^ 123 := by norm_num

example : IsPrimTy ⟨false, 8⟩ ∧ (sqrtPrim debugCfg ⟨false, 8⟩ 255 : Res Unit Int) = .ok 15 := by
  refine ⟨.inl rfl, ?_⟩
  decide +kernel
example : (sqrtPrim debugCfg ⟨true, 128⟩ (2 ^ 127 - 1) : Res Unit Int) = .panic ∧
    (sqrtPrim releaseCfg ⟨true, 128⟩ (2 ^ 127 - 1) : Res Unit Int) = .ok 13043817825332782213 := by
  decide +kernel
example : Valid debugCfg .i64 9 := by decide

end Fixnum
