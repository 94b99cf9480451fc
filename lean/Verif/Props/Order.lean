import Verif.Props.Integral
import Verif.Props.Sqrt

/-! # Properties C55, C56: bracketing and monotonicity of the rounding operations -/

namespace Fixnum

open Res Spec

variable {L : Layout} {P : Nat} {ε : Type}

/-! ## C55 -/

/-- `f ≤ n ≤ c`, `c - f` is at most one unit `u`, and `f = c` exactly when `exact`. -/
def Brackets (f n c u : ℚ) (exact : Prop) : Prop :=
  f ≤ n ∧ n ≤ c ∧ c - f ≤ u ∧ (f = c ↔ exact)

/-- `roundTo` in any mode lies between `Floor` and `Ceil`. -/
theorem roundTo_between (P : Nat) (mode : RoundMode) (q : ℚ) :
    roundTo P .floor q ≤ roundTo P mode q ∧ roundTo P mode q ≤ roundTo P .ceil q := by
  obtain ⟨h1, h2, _⟩ := roundTo_bracket P q
  cases mode
  · exact ⟨le_trans h1 h2, le_refl _⟩
  · exact ⟨h1, h2⟩
  · exact ⟨le_refl _, le_trans h1 h2⟩

/-- Whatever mode the result `n` was really rounded with, it is bracketed. -/
theorem brackets_of {f n c : FP L P} {q : ℚ} (mode : RoundMode)
    (hf : value f = roundTo P .floor q) (hn : value n = roundTo P mode q)
    (hc : value c = roundTo P .ceil q) :
    Brackets (value f) (value n) (value c) (1 / 10 ^ P) (Representable L P q) := by
  have h3 := (roundTo_bracket P q).2.2
  obtain ⟨h1, h2⟩ := roundTo_between P mode q
  refine ⟨by rw [hf, hn]; exact h1, by rw [hn, hc]; exact h2, by rw [hf, hc]; linarith, ?_⟩
  constructor
  · intro h
    have hb := roundTo_floor_spec P q
    have hb' := roundTo_ceil_spec P q
    refine ⟨f, ?_⟩
    rw [← hf] at hb
    rw [← hc] at hb'
    linarith [hb.1, hb'.1]
  · rintro ⟨x, rfl⟩
    rw [hf, hc, roundTo_value, roundTo_value]

/-- In every build, `rmul(.., Nearest)` that returns a value rounds the product in some way. -/
theorem rmul_nearest_some {cfg : Cfg} (hv : Valid cfg L P) (a b n : FP L P)
    (h : FP.rmul cfg a b .nearest = .ok n) :
    ∃ mode, value n = roundTo P mode (value a * value b) := by
  by_cases hs : RmulSafe L P (a.inner.toInt * b.inner.toInt)
  · exact ⟨_, ((C07_rmul_remainder_partial hv a b .nearest fun _ => hs).ok_iff n).1 h⟩
  · cases hc : cfg.overflowChecks
    · exact ⟨_, ((C07_rmul_wrapped hv hc a b hs).ok_iff n).1 h⟩
    · rw [(C07_rmul_panics_iff hv hc a b).2 hs] at h
      cases h

/-- C55 for `rmul`: for all operands, types and builds (even where `Nearest` is not the nearest). -/
theorem C55_rmul_brackets {cfg : Cfg} (hv : Valid cfg L P) (a b f n c : FP L P)
    (hf : FP.rmul cfg a b .floor = .ok f) (hn : FP.rmul cfg a b .nearest = .ok n)
    (hc : FP.rmul cfg a b .ceil = .ok c) :
    Brackets (value f) (value n) (value c) (value (FP.epsilon : FP L P))
      (Representable L P (value a * value b)) := by
  obtain ⟨m, hm⟩ := rmul_nearest_some hv a b n hn
  rw [C52_epsilon.1]
  exact brackets_of m (((C07_rmul_partial hv a b .floor (by simp)).ok_iff f).1 hf) hm
    (((C07_rmul_partial hv a b .ceil (by simp)).ok_iff c).1 hc)

example := C55_rmul_brackets (cfg := debugCfg) (by decide) (⟨15⟩ : FP .i64 1) ⟨-7⟩ ⟨-11⟩ ⟨-11⟩ ⟨-10⟩
  (by decide +kernel) (by decide +kernel) (by decide +kernel)

theorem rdiv_nearest_some {cfg : Cfg} (hv : Valid cfg L P) (a b n : FP L P) (hb : value b ≠ 0)
    (h : FP.rdiv cfg a b .nearest = .ok n) :
    ∃ mode, value n = roundTo P mode (value a / value b) := by
  by_cases hs : NearestSafe L (a.inner.toInt * 10 ^ P) b.inner.toInt
  · exact ⟨_, ((C11_rdiv_nearest_partial hv a b hb hs).ok_iff n).1 h⟩
  · cases hc : cfg.overflowChecks
    · have := ((C11_rdiv_nearest_wrapped hv hc a b hb hs).ok_iff n).1 h
      split at this
      · exact ⟨_, this⟩
      · exact ⟨_, this⟩
    · rw [(C11_rdiv_nearest_panics_iff hv hc a b hb).2 hs] at h
      cases h

theorem rdiv_ok_ne_zero {cfg : Cfg} (hv : Valid cfg L P) {a b f : FP L P} {mode : RoundMode}
    (h : FP.rdiv cfg a b mode = .ok f) : value b ≠ 0 := by
  intro hb
  rw [(C10_rdiv_zero_iff hv a b mode).2 hb] at h
  cases h

/-- C55 for `rdiv`: for all operands, types and builds. -/
theorem C55_rdiv_brackets {cfg : Cfg} (hv : Valid cfg L P) (a b f n c : FP L P)
    (hf : FP.rdiv cfg a b .floor = .ok f) (hn : FP.rdiv cfg a b .nearest = .ok n)
    (hc : FP.rdiv cfg a b .ceil = .ok c) :
    Brackets (value f) (value n) (value c) (value (FP.epsilon : FP L P))
      (Representable L P (value a / value b)) := by
  have hb := rdiv_ok_ne_zero hv hf
  obtain ⟨m, hm⟩ := rdiv_nearest_some hv a b n hb hn
  rw [C52_epsilon.1]
  exact brackets_of m (((C10_rdiv_directed hv a b .floor (by simp) hb).ok_iff f).1 hf) hm
    (((C10_rdiv_directed hv a b .ceil (by simp) hb).ok_iff c).1 hc)

example := C55_rdiv_brackets (cfg := debugCfg) (by decide) (⟨15⟩ : FP .i64 1) ⟨-7⟩ ⟨-22⟩ ⟨-21⟩ ⟨-21⟩
  (by decide +kernel) (by decide +kernel) (by decide +kernel)

theorem round_between (mode : RoundMode) (q : ℚ) :
    Spec.round .floor q ≤ Spec.round mode q ∧ Spec.round mode q ≤ Spec.round .ceil q := by
  obtain ⟨h1, h2, _⟩ := round_bracket q
  cases mode
  · exact ⟨le_trans h1 h2, le_refl _⟩
  · exact ⟨h1, h2⟩
  · exact ⟨le_refl _, le_trans h1 h2⟩

theorem integral_nearest_some {cfg : Cfg} (hv : Valid cfg L P) (a : FP L P) (n : BitVec L.bits)
    (hm : value a ≠ minValue L P) (h : (FP.integral cfg a .nearest : Res ε _) = .ok n) :
    ∃ mode, n.toInt = Spec.round mode (value a) := by
  by_cases hs : rawMax L < 2 * |a.inner.toInt.tmod (10 ^ P)|
  · cases hc : cfg.overflowChecks
    · obtain ⟨i, h1, h2⟩ := C18_integral_wrapped (ε := ε) hv hc a .nearest (Or.inr ⟨rfl, hs⟩)
      rw [h1] at h; cases h
      exact ⟨_, h2⟩
    · rw [(C18_integral_panics_iff hv hc a .nearest).2 (Or.inr ⟨rfl, hs⟩)] at h
      cases h
  · obtain ⟨i, h1, h2⟩ := C18_integral_partial (ε := ε) hv a .nearest hm fun _ => not_lt.1 hs
    rw [h1] at h; cases h
    exact ⟨_, h2⟩

/-- C55 for `integral`, every value but `MIN`.  Missing: `MIN`, for which it is false without
overflow checks, see `C55_integral_false`. -/
theorem C55_integral_brackets_partial {cfg : Cfg} (hv : Valid cfg L P) (a : FP L P)
    (f n c : BitVec L.bits) (hm : value a ≠ minValue L P)
    (hf : (FP.integral cfg a .floor : Res ε _) = .ok f)
    (hn : (FP.integral cfg a .nearest : Res ε _) = .ok n)
    (hc : (FP.integral cfg a .ceil : Res ε _) = .ok c) :
    Brackets f.toInt n.toInt c.toInt 1 (∃ z : Int, value a = z) := by
  obtain ⟨m, h2⟩ := integral_nearest_some hv a n hm hn
  obtain ⟨i, hi, h1⟩ := C18_integral_partial (ε := ε) hv a .floor hm (by simp)
  obtain ⟨j, hj, h3⟩ := C18_integral_partial (ε := ε) hv a .ceil hm (by simp)
  rw [hi] at hf; cases hf
  rw [hj] at hc; cases hc
  have hb := (round_bracket (value a)).2.2
  obtain ⟨b1, b2⟩ := round_between m (value a)
  rw [← h1, ← h2] at b1
  rw [← h2, ← h3] at b2
  have h5 := round_floor_eq_ceil_iff (value a)
  rw [← h1, ← h3] at h5 hb
  refine ⟨by exact_mod_cast b1, by exact_mod_cast b2, ?_, ?_⟩
  · rw [sub_le_iff_le_add]
    exact_mod_cast (by omega : c.toInt ≤ 1 + f.toInt)
  · rw [← h5]; exact_mod_cast Iff.rfl

example := C55_integral_brackets_partial (ε := Unit) (cfg := debugCfg) (by decide)
  (⟨-27⟩ : FP .i64 1) (-3) (-3) (-2) (by decide +kernel) (by decide +kernel) (by decide +kernel)
  (by decide +kernel)

/-- C55 is false for `integral` of `MIN` without overflow checks: all three directions return `-3`
for `-3.2768`. -/
theorem C55_integral_false :
    (∀ mode, (FP.integral releaseCfg (FP.min : FP .i16 4) mode : Res Unit _) = .ok (-3)) ∧
    ¬ ∃ z : Int, value (FP.min : FP .i16 4) = z := by
  constructor
  · intro mode; cases mode <;> decide +kernel
  · rintro ⟨z, hz⟩
    rw [value_eq _ (-32768) (by decide)] at hz
    rw [div_eq_iff (by norm_num)] at hz
    have : (-32768 : Int) = z * 10 ^ 4 := by exact_mod_cast hz
    omega

/-- C55 for `rsqrt`: unconditional. -/
theorem C55_rsqrt_brackets {cfg : Cfg} (hv : Valid cfg L P) (a f n c : FP L P)
    (hf : FP.rsqrt cfg a .floor = .ok f) (hn : FP.rsqrt cfg a .nearest = .ok n)
    (hc : FP.rsqrt cfg a .ceil = .ok c) :
    Brackets (value f) (value n) (value c) (value (FP.epsilon : FP L P))
      (∃ s : FP L P, 0 ≤ value s ∧ value s * value s = value a) := by
  have ha : 0 ≤ value a := by
    by_contra h
    rw [(C22_rsqrt_domain hv a .floor).2 (not_le.1 h)] at hf
    cases hf
  have get : ∀ {mode : RoundMode} {r : FP L P}, FP.rsqrt cfg a mode = .ok r →
      IsRoundedSqrt P mode (value a) (value r) := by
    intro mode r h
    obtain ⟨s, hs, h'⟩ := C22_rsqrt hv a ha mode
    rw [hs] at h; cases h; exact h'
  obtain ⟨⟨i, ei⟩, f1, f2⟩ := get hf
  obtain ⟨⟨j, ej⟩, n1⟩ := get hn
  obtain ⟨⟨k, ek⟩, c1, c2⟩ := get hc
  have hp : (0 : ℝ) < 10 ^ P := by positivity
  have hpq : (0 : ℚ) < 10 ^ P := by positivity
  rw [C52_epsilon.1]
  rw [ei] at f1 f2
  rw [ej] at n1
  rw [ek] at c1 c2
  push_cast at f1 f2 n1 c1 c2
  have n1' := abs_lt.1 n1
  rw [div_le_iff₀ hp] at f1
  rw [← add_div, lt_div_iff₀ hp] at f2
  rw [← sub_div, div_lt_iff₀ hp] at c1
  rw [le_div_iff₀ hp] at c2
  have n2 : (j : ℝ) - 1 / 2 < √(value a : ℝ) * 10 ^ P := by
    have := n1'.2
    rw [sub_lt_iff_lt_add, div_lt_iff₀ hp, add_mul, div_mul_cancel₀ _ hp.ne'] at this
    linarith
  have n3 : √(value a : ℝ) * 10 ^ P < (j : ℝ) + 1 / 2 := by
    have := n1'.1
    rw [neg_lt_sub_iff_lt_add, ← add_div, lt_div_iff₀ hp] at this
    linarith
  generalize √(value a : ℝ) * 10 ^ P = t at *
  have b1 : i ≤ j := by
    have : (i : ℝ) < (j + 1 : Int) := by push_cast; linarith
    have : i < j + 1 := by exact_mod_cast this
    omega
  have b2 : j ≤ k := by
    have : (j : ℝ) < (k + 1 : Int) := by push_cast; linarith
    have : j < k + 1 := by exact_mod_cast this
    omega
  have b3 : k ≤ i + 1 := by
    have : (k : ℝ) < (i + 2 : Int) := by push_cast; linarith
    have : k < i + 2 := by exact_mod_cast this
    omega
  refine ⟨?_, ?_, ?_, ?_⟩
  · rw [ei, ej, div_le_div_iff_of_pos_right hpq]; exact_mod_cast b1
  · rw [ek, ej, div_le_div_iff_of_pos_right hpq]; exact_mod_cast b2
  · rw [ek, ei, ← sub_div, div_le_div_iff_of_pos_right hpq, sub_le_iff_le_add]
    exact_mod_cast (by omega : k ≤ 1 + i)
  · constructor
    · intro h
      obtain ⟨_, g1, g2⟩ := get hf
      obtain ⟨_, g3, g4⟩ := get hc
      rw [← h] at g4
      have e : (value f : ℝ) = √(value a : ℝ) := le_antisymm g1 g4
      have e2 : (value f : ℝ) * value f = value a := by
        rw [e, Real.mul_self_sqrt (by exact_mod_cast ha)]
      refine ⟨f, ?_, by exact_mod_cast e2⟩
      have : (0 : ℝ) ≤ value f := by rw [e]; exact Real.sqrt_nonneg _
      exact_mod_cast this
    · rintro ⟨s, h0, hs⟩
      have r1 := C22_rsqrt_exact hv a s h0 hs .floor
      have r2 := C22_rsqrt_exact hv a s h0 hs .ceil
      rw [hf] at r1; rw [hc] at r2
      cases r1; cases r2; rfl

example := C55_rsqrt_brackets (cfg := debugCfg) (by decide) (⟨2000000000⟩ : FP .i64 9) ⟨1414213562⟩ ⟨1414213562⟩
  ⟨1414213563⟩ (by decide +kernel) (by decide +kernel) (by decide +kernel)

example : FP.rmul debugCfg (⟨1500000001⟩ : FP .i64 9) ⟨500000000⟩ .floor = .ok ⟨750000000⟩ ∧
    FP.rmul debugCfg (⟨1500000001⟩ : FP .i64 9) ⟨500000000⟩ .nearest = .ok ⟨750000001⟩ ∧
    FP.rmul debugCfg (⟨1500000001⟩ : FP .i64 9) ⟨500000000⟩ .ceil = .ok ⟨750000001⟩ := by
  decide +kernel
example : FP.rdiv debugCfg (⟨10⟩ : FP .i64 9) ⟨3000000000⟩ .floor = .ok ⟨3⟩ ∧
    FP.rdiv debugCfg (⟨10⟩ : FP .i64 9) ⟨3000000000⟩ .nearest = .ok ⟨3⟩ ∧
    FP.rdiv debugCfg (⟨10⟩ : FP .i64 9) ⟨3000000000⟩ .ceil = .ok ⟨4⟩ := by decide +kernel
example : FP.rsqrt debugCfg (⟨2000000000⟩ : FP .i64 9) .floor = .ok ⟨1414213562⟩ ∧
    FP.rsqrt debugCfg (⟨2000000000⟩ : FP .i64 9) .nearest = .ok ⟨1414213562⟩ ∧
    FP.rsqrt debugCfg (⟨2000000000⟩ : FP .i64 9) .ceil = .ok ⟨1414213563⟩ := by decide +kernel
example : (FP.integral debugCfg (⟨-2500000000⟩ : FP .i64 9) .floor : Res Unit _) = .ok (-3) ∧
    (FP.integral debugCfg (⟨-2500000000⟩ : FP .i64 9) .nearest : Res Unit _) = .ok (-3) ∧
    (FP.integral debugCfg (⟨-2500000000⟩ : FP .i64 9) .ceil : Res Unit _) = .ok (-2) := by
  decide +kernel

/-! ## C56 -/

/-- C56 for `rmul` by a non-negative factor.
Missing: `Nearest` on `FixedPoint<i128, U38>` outside the condition of C07, see `C56_rmul_false`. -/
theorem C56_rmul_mono_partial {cfg : Cfg} (hv : Valid cfg L P) (a b c x y : FP L P)
    (mode : RoundMode) (hab : value a ≤ value b) (hc : 0 ≤ value c)
    (hx : FP.rmul cfg a c mode = .ok x) (hy : FP.rmul cfg b c mode = .ok y)
    (hs : mode = .nearest → RmulSafe L P (a.inner.toInt * c.inner.toInt) ∧
      RmulSafe L P (b.inner.toInt * c.inner.toInt)) : value x ≤ value y := by
  rw [((C07_rmul_remainder_partial hv a c mode fun h => (hs h).1).ok_iff x).1 hx,
    ((C07_rmul_remainder_partial hv b c mode fun h => (hs h).2).ok_iff y).1 hy]
  exact roundTo_mono P mode (mul_le_mul_of_nonneg_right hab hc)

example := C56_rmul_mono_partial (cfg := releaseCfg) (by decide) (⟨-15⟩ : FP .i64 1) ⟨22⟩ ⟨7⟩ ⟨-11⟩
  ⟨15⟩ .nearest (by decide +kernel) (by decide +kernel) (by decide +kernel) (by decide +kernel)
  (fun _ => by unfold RmulSafe; decide +kernel)

/-- C56 for `rmul`, every type but `FixedPoint<i128, U38>`, no condition on the operands. -/
theorem C56_rmul_mono_types_partial {cfg : Cfg} (hv : Valid cfg L P) (a b c x y : FP L P)
    (mode : RoundMode) (hab : value a ≤ value b) (hc : 0 ≤ value c)
    (hx : FP.rmul cfg a c mode = .ok x) (hy : FP.rmul cfg b c mode = .ok y)
    (hne : mode = .nearest → ¬ (L = .i128 ∧ P = 38)) : value x ≤ value y :=
  C56_rmul_mono_partial hv a b c x y mode hab hc hx hy fun h =>
    ⟨remainder_ok hv (hne h) _, remainder_ok hv (hne h) _⟩

example := C56_rmul_mono_types_partial (cfg := releaseCfg) (by decide) (⟨-15⟩ : FP .i64 1) ⟨22⟩ ⟨7⟩
  ⟨-11⟩ ⟨15⟩ .nearest (by decide +kernel) (by decide +kernel) (by decide +kernel)
  (by decide +kernel) (by decide)

/-- C56 with overflow checks: `rmul` is monotone on every type, in every mode, for all operands. -/
theorem C56_rmul_mono_checked {cfg : Cfg} (hv : Valid cfg L P) (ho : cfg.overflowChecks = true)
    (a b c x y : FP L P) (mode : RoundMode) (hab : value a ≤ value b) (hc : 0 ≤ value c)
    (hx : FP.rmul cfg a c mode = .ok x) (hy : FP.rmul cfg b c mode = .ok y) :
    value x ≤ value y := by
  refine C56_rmul_mono_partial hv a b c x y mode hab hc hx hy ?_
  rintro rfl
  constructor
  · by_contra h
    rw [(C07_rmul_panics_iff hv ho a c).2 h] at hx; cases hx
  · by_contra h
    rw [(C07_rmul_panics_iff hv ho b c).2 h] at hy; cases hy

example := C56_rmul_mono_checked (cfg := debugCfg) (by decide) rfl (⟨-15⟩ : FP .i64 1) ⟨22⟩ ⟨7⟩ ⟨-11⟩
  ⟨15⟩ .nearest (by decide +kernel) (by decide +kernel) (by decide +kernel) (by decide +kernel)

/-- C56 is false for `rmul(.., Nearest)` on `FixedPoint<i128, U38>` without overflow checks:
`-0.99` units become `0`, the larger `-0.6` units become `-1`. -/
theorem C56_rmul_false :
    FP.rmul releaseCfg (⟨BitVec.ofInt 128 (-99 * 10 ^ 36)⟩ : FP .i128 38) FP.epsilon .nearest =
      .ok ⟨BitVec.ofInt 128 0⟩ ∧
    FP.rmul releaseCfg (⟨BitVec.ofInt 128 (-6 * 10 ^ 37)⟩ : FP .i128 38) FP.epsilon .nearest =
      .ok ⟨BitVec.ofInt 128 (-1)⟩ := by decide +kernel

/-- C56 for `rdiv` by a positive divisor.
Missing: `Nearest` outside the condition of C11, see `C56_rdiv_false`. -/
theorem C56_rdiv_mono_partial {cfg : Cfg} (hv : Valid cfg L P) (a b c x y : FP L P)
    (mode : RoundMode) (hab : value a ≤ value b) (hc : 0 < value c)
    (hx : FP.rdiv cfg a c mode = .ok x) (hy : FP.rdiv cfg b c mode = .ok y)
    (hs : mode = .nearest → NearestSafe L (a.inner.toInt * 10 ^ P) c.inner.toInt ∧
      NearestSafe L (b.inner.toInt * 10 ^ P) c.inner.toInt) : value x ≤ value y := by
  have get : ∀ {z r : FP L P}, FP.rdiv cfg z c mode = .ok r →
      (mode = .nearest → NearestSafe L (z.inner.toInt * 10 ^ P) c.inner.toInt) →
      value r = roundTo P mode (value z / value c) := by
    intro z r h hz
    by_cases hm : mode = .nearest
    · subst hm
      exact ((C11_rdiv_nearest_partial hv z c hc.ne' (hz rfl)).ok_iff r).1 h
    · exact ((C10_rdiv_directed hv z c mode hm hc.ne').ok_iff r).1 h
  rw [get hx fun h => (hs h).1, get hy fun h => (hs h).2]
  exact roundTo_mono P mode (div_le_div_of_nonneg_right hab hc.le)

example := C56_rdiv_mono_partial (cfg := releaseCfg) (by decide) (⟨-15⟩ : FP .i64 1) ⟨22⟩ ⟨7⟩ ⟨-21⟩
  ⟨31⟩ .nearest (by decide +kernel) (by decide +kernel) (by decide +kernel) (by decide +kernel)
  (fun _ => by unfold NearestSafe; decide +kernel)

/-- C56 with overflow checks: `rdiv` is monotone on every type, in every mode, for all operands. -/
theorem C56_rdiv_mono_checked {cfg : Cfg} (hv : Valid cfg L P) (ho : cfg.overflowChecks = true)
    (a b c x y : FP L P) (mode : RoundMode) (hab : value a ≤ value b) (hc : 0 < value c)
    (hx : FP.rdiv cfg a c mode = .ok x) (hy : FP.rdiv cfg b c mode = .ok y) :
    value x ≤ value y := by
  refine C56_rdiv_mono_partial hv a b c x y mode hab hc hx hy ?_
  rintro rfl
  constructor
  · by_contra h
    rw [(C11_rdiv_nearest_panics_iff hv ho a c hc.ne').2 h] at hx; cases hx
  · by_contra h
    rw [(C11_rdiv_nearest_panics_iff hv ho b c hc.ne').2 h] at hy; cases hy

example := C56_rdiv_mono_checked (cfg := debugCfg) (by decide) rfl (⟨-15⟩ : FP .i64 1) ⟨22⟩ ⟨7⟩ ⟨-21⟩
  ⟨31⟩ .nearest (by decide +kernel) (by decide +kernel) (by decide +kernel) (by decide +kernel)

/-- C56 is false for `rdiv(.., Nearest)` without overflow checks: on `FixedPoint<i16, U0>`
`15000 / 30000` is `1` but `20000 / 30000` is `0`. -/
theorem C56_rdiv_false :
    FP.rdiv releaseCfg (⟨15000⟩ : FP .i16 0) ⟨30000⟩ .nearest = .ok ⟨1⟩ ∧
    FP.rdiv releaseCfg (⟨20000⟩ : FP .i16 0) ⟨30000⟩ .nearest = .ok ⟨0⟩ := by decide +kernel

/-- C56 for `rsqrt`: unconditional. -/
theorem C56_rsqrt_mono {cfg : Cfg} (hv : Valid cfg L P) (a b x y : FP L P)
    (mode : RoundMode) (hab : value a ≤ value b)
    (hx : FP.rsqrt cfg a mode = .ok x) (hy : FP.rsqrt cfg b mode = .ok y) :
    value x ≤ value y := by
  have get : ∀ {z r : FP L P}, FP.rsqrt cfg z mode = .ok r →
      IsRoundedSqrt P mode (value z) (value r) := by
    intro z r h
    have hz : 0 ≤ value z := by
      by_contra h'
      rw [(C22_rsqrt_domain hv z mode).2 (not_le.1 h')] at h
      cases h
    obtain ⟨s, hs, h'⟩ := C22_rsqrt hv z hz mode
    rw [hs] at h; cases h; exact h'
  obtain ⟨⟨i, ei⟩, h1⟩ := get hx
  obtain ⟨⟨j, ej⟩, h2⟩ := get hy
  have hp : (0 : ℝ) < 10 ^ P := by positivity
  have hpq : (0 : ℚ) < 10 ^ P := by positivity
  have hst : √(value a : ℝ) ≤ √(value b : ℝ) := Real.sqrt_le_sqrt (by exact_mod_cast hab)
  rw [ei] at h1
  rw [ej] at h2
  rw [ei, ej, div_le_div_iff_of_pos_right hpq]
  have key : (i : ℝ) / 10 ^ P < (j : ℝ) / 10 ^ P + 1 / 10 ^ P → (i : ℚ) ≤ j := by
    intro h
    rw [← add_div, div_lt_div_iff_of_pos_right hp] at h
    have : i < j + 1 := by exact_mod_cast h
    exact_mod_cast (by omega : i ≤ j)
  apply key
  cases mode
  · dsimp only at h1 h2; push_cast at h1 h2
    linarith [h1.1, h2.2]
  · dsimp only at h1 h2; push_cast at h1 h2
    rw [abs_lt] at h1 h2
    have : (1 : ℝ) / 10 ^ P = 1 / 2 / 10 ^ P + 1 / 2 / 10 ^ P := by ring
    linarith [h1.2, h2.1]
  · dsimp only at h1 h2; push_cast at h1 h2
    linarith [h1.1, h2.2]

example := C56_rsqrt_mono (cfg := debugCfg) (by decide) (⟨20000⟩ : FP .i64 4) ⟨30000⟩ ⟨14142⟩ ⟨17321⟩
  .nearest (by decide +kernel) (by decide +kernel) (by decide +kernel)

/-- C56 for `integral`.  Missing: `MIN`, and `Nearest` with a fraction above `MAX/2` units (only on
`FixedPoint<i128, U38>`), see `C56_integral_false`. -/
theorem C56_integral_mono_partial {cfg : Cfg} (hv : Valid cfg L P) (a b : FP L P)
    (x y : BitVec L.bits) (mode : RoundMode) (hab : value a ≤ value b)
    (hm : value a ≠ minValue L P)
    (hs : mode = .nearest → 2 * |a.inner.toInt.tmod (10 ^ P)| ≤ rawMax L ∧
      2 * |b.inner.toInt.tmod (10 ^ P)| ≤ rawMax L)
    (hx : (FP.integral cfg a mode : Res ε _) = .ok x)
    (hy : (FP.integral cfg b mode : Res ε _) = .ok y) : x.toInt ≤ y.toInt := by
  have hm' : value b ≠ minValue L P := by
    intro h
    have h1 := (C52_bounds a).1
    rw [C52_bounds_value.1] at h1
    rw [h] at hab
    exact hm (le_antisymm hab h1)
  obtain ⟨i, h1, h2⟩ := C18_integral_partial (ε := ε) hv a mode hm fun h => (hs h).1
  obtain ⟨j, h3, h4⟩ := C18_integral_partial (ε := ε) hv b mode hm' fun h => (hs h).2
  rw [h1] at hx; cases hx
  rw [h3] at hy; cases hy
  rw [h2, h4]
  exact round_mono mode hab

example := C56_integral_mono_partial (ε := Unit) (cfg := releaseCfg) (by decide)
  (⟨-27⟩ : FP .i64 1) ⟨14⟩ (-3) 1 .nearest (by decide +kernel) (by decide +kernel)
  (fun _ => by decide +kernel) (by decide +kernel) (by decide +kernel)

/-- C56 with overflow checks: `integral` is monotone on every type, in every mode. -/
theorem C56_integral_mono_checked {cfg : Cfg} (hv : Valid cfg L P)
    (ho : cfg.overflowChecks = true) (a b : FP L P)
    (x y : BitVec L.bits) (mode : RoundMode) (hab : value a ≤ value b)
    (hx : (FP.integral cfg a mode : Res ε _) = .ok x)
    (hy : (FP.integral cfg b mode : Res ε _) = .ok y) : x.toInt ≤ y.toInt := by
  have nx := mt (C18_integral_panics_iff (ε := ε) hv ho a mode).2 (by rw [hx]; simp)
  have ny := mt (C18_integral_panics_iff (ε := ε) hv ho b mode).2 (by rw [hy]; simp)
  rw [not_or, not_and, not_lt] at nx ny
  exact C56_integral_mono_partial hv a b x y mode hab nx.1 (fun h => ⟨nx.2 h, ny.2 h⟩) hx hy

example := C56_integral_mono_checked (ε := Unit) (cfg := debugCfg) (by decide) rfl
  (⟨-27⟩ : FP .i64 1) ⟨14⟩ (-3) 1 .nearest (by decide +kernel) (by decide +kernel)
  (by decide +kernel)

/-- C56 is false for `integral` without overflow checks: the floor of `-3.2768` is returned as `-3`,
the floor of the larger `-3.2767` as `-4`. -/
theorem C56_integral_false :
    (FP.integral releaseCfg (FP.min : FP .i16 4) .floor : Res Unit _) = .ok (-3) ∧
    (FP.integral releaseCfg (⟨-32767⟩ : FP .i16 4) .floor : Res Unit _) = .ok (-4) := by
  decide +kernel

example : value (⟨-5⟩ : FP .i64 9) ≤ value (⟨7⟩ : FP .i64 9) ∧
    0 < value (⟨300000000⟩ : FP .i64 9) := by
  rw [value_eq _ (-5) (by decide), value_eq _ 7 (by decide), value_eq _ 300000000 (by decide)]
  norm_num
example : FP.rmul debugCfg (⟨-5⟩ : FP .i64 9) ⟨300000000⟩ .nearest = .ok ⟨-2⟩ ∧
    FP.rmul debugCfg (⟨7⟩ : FP .i64 9) ⟨300000000⟩ .nearest = .ok ⟨2⟩ ∧
    FP.rdiv debugCfg (⟨-5⟩ : FP .i64 9) ⟨300000000⟩ .nearest = .ok ⟨-17⟩ ∧
    FP.rdiv debugCfg (⟨7⟩ : FP .i64 9) ⟨300000000⟩ .nearest = .ok ⟨23⟩ := by decide +kernel

end Fixnum
