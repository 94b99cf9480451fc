import Verif.Props.Laws

/-!
# Properties C69, C70, C71: programs of rounding operations

C69: interval evaluation of an expression encloses the exact number.
C70: rounding errors of a sequence of operations add up to at most one unit per operation.
C71: an amount can be split without loss.
-/

namespace Fixnum

open Res Spec

variable {L : Layout} {P : Nat} {ε : Type}

/-! ## C69 -/

/-- An arithmetic expression over fixed-point numbers. -/
inductive Term (L : Layout) (P : Nat)
  | lit (x : FP L P)
  | add (s t : Term L P)
  | sub (s t : Term L P)
  | mul (s t : Term L P)
  | div (s t : Term L P)
  | sqrt (s : Term L P)
  | half (s t : Term L P)

/-- The real number an expression denotes. -/
noncomputable def Term.exact : Term L P → ℝ
  | .lit x => (value x : ℝ)
  | .add s t => s.exact + t.exact
  | .sub s t => s.exact - t.exact
  | .mul s t => s.exact * t.exact
  | .div s t => s.exact / t.exact
  | .sqrt s => √s.exact
  | .half s t => (s.exact + t.exact) / 2

/-- `Ord::min` and `Ord::max` of the derived order. -/
def smaller (a b : FP L P) : FP L P := if FP.cmp a b = .gt then b else a
def larger (a b : FP L P) : FP L P := if FP.cmp a b = .gt then a else b

/-- A client of the crate: evaluate the expression with `Floor` for the lower and `Ceil` for the
upper bound, the textbook rules of interval arithmetic.  The first error ends the evaluation.  A
divisor must be bounded away from zero from below. -/
def Term.bounds (cfg : Cfg) : Term L P → Res ArithErr (FP L P × FP L P)
  | .lit x => .ok (x, x)
  | .add s t => do
    let i ← s.bounds cfg
    let j ← t.bounds cfg
    let lo ← FP.cadd i.1 j.1
    let hi ← FP.cadd i.2 j.2
    .ok (lo, hi)
  | .sub s t => do
    let i ← s.bounds cfg
    let j ← t.bounds cfg
    let lo ← FP.csub i.1 j.2
    let hi ← FP.csub i.2 j.1
    .ok (lo, hi)
  | .mul s t => do
    let i ← s.bounds cfg
    let j ← t.bounds cfg
    let l1 ← FP.rmul cfg i.1 j.1 .floor
    let l2 ← FP.rmul cfg i.1 j.2 .floor
    let l3 ← FP.rmul cfg i.2 j.1 .floor
    let l4 ← FP.rmul cfg i.2 j.2 .floor
    let h1 ← FP.rmul cfg i.1 j.1 .ceil
    let h2 ← FP.rmul cfg i.1 j.2 .ceil
    let h3 ← FP.rmul cfg i.2 j.1 .ceil
    let h4 ← FP.rmul cfg i.2 j.2 .ceil
    .ok (smaller (smaller l1 l2) (smaller l3 l4), larger (larger h1 h2) (larger h3 h4))
  | .div s t => do
    let i ← s.bounds cfg
    let j ← t.bounds cfg
    if FP.cmp FP.zero j.1 = .lt then do
      let l1 ← FP.rdiv cfg i.1 j.1 .floor
      let l2 ← FP.rdiv cfg i.1 j.2 .floor
      let h1 ← FP.rdiv cfg i.2 j.1 .ceil
      let h2 ← FP.rdiv cfg i.2 j.2 .ceil
      .ok (smaller l1 l2, larger h1 h2)
    else .err .domainViolation
  | .sqrt s => do
    let i ← s.bounds cfg
    let lo ← FP.rsqrt cfg i.1 .floor
    let hi ← FP.rsqrt cfg i.2 .ceil
    .ok (lo, hi)
  | .half s t => do
    let i ← s.bounds cfg
    let j ← t.bounds cfg
    let lo ← FP.halfSum cfg i.1 j.1 .floor
    let hi ← FP.halfSum cfg i.2 j.2 .ceil
    .ok (lo, hi)

theorem smaller_le (a b : FP L P) : value (smaller a b) ≤ value a ∧ value (smaller a b) ≤ value b := by
  unfold smaller
  rw [C54_cmp]
  split
  · rename_i h; have := compare_gt_iff_gt.1 h; exact ⟨this.le, le_refl _⟩
  · rename_i h; exact ⟨le_refl _, not_lt.1 fun hc => h (compare_gt_iff_gt.2 hc)⟩

theorem le_larger (a b : FP L P) :
    value a ≤ value (larger a b) ∧ value b ≤ value (larger a b) := by
  unfold larger
  rw [C54_cmp]
  split
  · rename_i h; have := compare_gt_iff_gt.1 h; exact ⟨le_refl _, this.le⟩
  · rename_i h; exact ⟨not_lt.1 fun hc => h (compare_gt_iff_gt.2 hc), le_refl _⟩

/-- A product of numbers from two intervals is bounded by the products of the ends. -/
theorem interval_mul_le {a b c d x y m : ℝ} (hx : a ≤ x ∧ x ≤ b) (hy : c ≤ y ∧ y ≤ d)
    (h1 : a * c ≤ m) (h2 : a * d ≤ m) (h3 : b * c ≤ m) (h4 : b * d ≤ m) : x * y ≤ m := by
  have hay : a * y ≤ m := by
    rcases le_total 0 a with h | h
    · exact le_trans (mul_le_mul_of_nonneg_left hy.2 h) h2
    · exact le_trans (mul_le_mul_of_nonpos_left hy.1 h) h1
  have hby : b * y ≤ m := by
    rcases le_total 0 b with h | h
    · exact le_trans (mul_le_mul_of_nonneg_left hy.2 h) h4
    · exact le_trans (mul_le_mul_of_nonpos_left hy.1 h) h3
  rcases le_total 0 y with h | h
  · exact le_trans (mul_le_mul_of_nonneg_right hx.2 h) hby
  · exact le_trans (mul_le_mul_of_nonpos_right hx.1 h) hay

theorem le_interval_mul {a b c d x y m : ℝ} (hx : a ≤ x ∧ x ≤ b) (hy : c ≤ y ∧ y ≤ d)
    (h1 : m ≤ a * c) (h2 : m ≤ a * d) (h3 : m ≤ b * c) (h4 : m ≤ b * d) : m ≤ x * y := by
  have := interval_mul_le (m := -m) (a := -b) (b := -a) (x := -x) (y := y) ⟨neg_le_neg hx.2, neg_le_neg hx.1⟩
    hy (by linarith) (by linarith) (by linarith) (by linarith)
  linarith

theorem bind_ok_of {α β : Type} {r : Res ε α} {f : α → Res ε β} {b : β} (h : r >>= f = .ok b) :
    ∃ a, r = .ok a ∧ f a = .ok b := by
  cases r with
  | ok a => exact ⟨a, rfl, h⟩
  | err e => cases h
  | fault x => cases h

/-- The number lies between the values of the two bounds. -/
def Encloses (i : FP L P × FP L P) (x : ℝ) : Prop := (value i.1 : ℝ) ≤ x ∧ x ≤ (value i.2 : ℝ)

theorem rmul_floor_le {cfg : Cfg} (hv : Valid cfg L P) {a b r : FP L P}
    (h : FP.rmul cfg a b .floor = .ok r) : (value r : ℝ) ≤ (value a : ℝ) * value b := by
  exact_mod_cast (C07_rmul_floor hv a b r h).1

theorem le_rmul_ceil {cfg : Cfg} (hv : Valid cfg L P) {a b r : FP L P}
    (h : FP.rmul cfg a b .ceil = .ok r) : (value a : ℝ) * value b ≤ (value r : ℝ) := by
  exact_mod_cast (C07_rmul_ceil hv a b r h).1

theorem rdiv_floor_le {cfg : Cfg} (hv : Valid cfg L P) {a b r : FP L P}
    (h : FP.rdiv cfg a b .floor = .ok r) : (value r : ℝ) ≤ (value a : ℝ) / value b := by
  exact_mod_cast (C10_rdiv_floor hv a b r (rdiv_ok_ne_zero hv h) h).1

theorem le_rdiv_ceil {cfg : Cfg} (hv : Valid cfg L P) {a b r : FP L P}
    (h : FP.rdiv cfg a b .ceil = .ok r) : (value a : ℝ) / value b ≤ (value r : ℝ) := by
  exact_mod_cast (C10_rdiv_ceil hv a b r (rdiv_ok_ne_zero hv h) h).1

/-- C69: for every expression, however deep, and every build: if the interval evaluation returns two
bounds, the exact real number lies between them. -/
theorem C69_interval {cfg : Cfg} (hv : Valid cfg L P) (t : Term L P) (i : FP L P × FP L P)
    (h : t.bounds cfg = .ok i) : Encloses i t.exact := by
  induction t generalizing i with
  | lit x => cases h; exact ⟨le_refl _, le_refl _⟩
  | add s t hs ht =>
    obtain ⟨i1, e1, h⟩ := bind_ok_of h
    obtain ⟨i2, e2, h⟩ := bind_ok_of h
    obtain ⟨lo, e3, h⟩ := bind_ok_of h
    obtain ⟨hi, e4, h⟩ := bind_ok_of h
    cases h
    obtain ⟨a1, b1⟩ := hs i1 e1
    obtain ⟨a2, b2⟩ := ht i2 e2
    refine ⟨?_, ?_⟩
    · rw [C01_cadd_ok _ _ _ e3]; push_cast; exact add_le_add a1 a2
    · rw [C01_cadd_ok _ _ _ e4]; push_cast; exact add_le_add b1 b2
  | sub s t hs ht =>
    obtain ⟨i1, e1, h⟩ := bind_ok_of h
    obtain ⟨i2, e2, h⟩ := bind_ok_of h
    obtain ⟨lo, e3, h⟩ := bind_ok_of h
    obtain ⟨hi, e4, h⟩ := bind_ok_of h
    cases h
    obtain ⟨a1, b1⟩ := hs i1 e1
    obtain ⟨a2, b2⟩ := ht i2 e2
    refine ⟨?_, ?_⟩
    · rw [C02_csub_ok _ _ _ e3]; push_cast; exact sub_le_sub a1 b2
    · rw [C02_csub_ok _ _ _ e4]; push_cast; exact sub_le_sub b1 a2
  | mul s t hs ht =>
    obtain ⟨i1, e1, h⟩ := bind_ok_of h
    obtain ⟨i2, e2, h⟩ := bind_ok_of h
    obtain ⟨l1, f1, h⟩ := bind_ok_of h
    obtain ⟨l2, f2, h⟩ := bind_ok_of h
    obtain ⟨l3, f3, h⟩ := bind_ok_of h
    obtain ⟨l4, f4, h⟩ := bind_ok_of h
    obtain ⟨h1, g1, h⟩ := bind_ok_of h
    obtain ⟨h2, g2, h⟩ := bind_ok_of h
    obtain ⟨h3, g3, h⟩ := bind_ok_of h
    obtain ⟨h4, g4, h⟩ := bind_ok_of h
    cases h
    have m1 := hs i1 e1
    have m2 := ht i2 e2
    have q := smaller_le (smaller l1 l2) (smaller l3 l4)
    have q1 := smaller_le l1 l2
    have q2 := smaller_le l3 l4
    have r := le_larger (larger h1 h2) (larger h3 h4)
    have r1 := le_larger h1 h2
    have r2 := le_larger h3 h4
    refine ⟨le_interval_mul m1 m2 ?_ ?_ ?_ ?_, interval_mul_le m1 m2 ?_ ?_ ?_ ?_⟩
    · exact le_trans (by exact_mod_cast le_trans q.1 q1.1) (rmul_floor_le hv f1)
    · exact le_trans (by exact_mod_cast le_trans q.1 q1.2) (rmul_floor_le hv f2)
    · exact le_trans (by exact_mod_cast le_trans q.2 q2.1) (rmul_floor_le hv f3)
    · exact le_trans (by exact_mod_cast le_trans q.2 q2.2) (rmul_floor_le hv f4)
    · exact le_trans (le_rmul_ceil hv g1) (by exact_mod_cast le_trans r1.1 r.1)
    · exact le_trans (le_rmul_ceil hv g2) (by exact_mod_cast le_trans r1.2 r.1)
    · exact le_trans (le_rmul_ceil hv g3) (by exact_mod_cast le_trans r2.1 r.2)
    · exact le_trans (le_rmul_ceil hv g4) (by exact_mod_cast le_trans r2.2 r.2)
  | div s t hs ht =>
    obtain ⟨i1, e1, h⟩ := bind_ok_of h
    obtain ⟨i2, e2, h⟩ := bind_ok_of h
    split at h
    swap
    · cases h
    rename_i hpos
    rw [C54_cmp, compare_lt_iff_lt, C52_zero] at hpos
    obtain ⟨l1, f1, h⟩ := bind_ok_of h
    obtain ⟨l2, f2, h⟩ := bind_ok_of h
    obtain ⟨h1, g1, h⟩ := bind_ok_of h
    obtain ⟨h2, g2, h⟩ := bind_ok_of h
    cases h
    obtain ⟨a1, b1⟩ := hs i1 e1
    obtain ⟨a2, b2⟩ := ht i2 e2
    have hc : (0 : ℝ) < (value i2.1 : ℝ) := by exact_mod_cast hpos
    have hy : 0 < t.exact := lt_of_lt_of_le hc a2
    have hd : (0 : ℝ) < (value i2.2 : ℝ) := lt_of_lt_of_le hy b2
    have q := smaller_le l1 l2
    have r := le_larger h1 h2
    refine ⟨?_, ?_⟩
    · have s1 : (value i1.1 : ℝ) / t.exact ≤ s.exact / t.exact :=
        div_le_div_of_nonneg_right a1 hy.le
      refine le_trans ?_ s1
      rcases le_total 0 (value i1.1 : ℝ) with hz | hz
      · refine le_trans (le_trans (by exact_mod_cast q.2) (rdiv_floor_le hv f2)) ?_
        exact div_le_div_of_nonneg_left hz hy b2
      · refine le_trans (le_trans (by exact_mod_cast q.1) (rdiv_floor_le hv f1)) ?_
        rw [div_le_div_iff₀ hc hy]
        exact mul_le_mul_of_nonpos_left a2 hz
    · have s1 : s.exact / t.exact ≤ (value i1.2 : ℝ) / t.exact :=
        div_le_div_of_nonneg_right b1 hy.le
      refine le_trans s1 ?_
      rcases le_total 0 (value i1.2 : ℝ) with hz | hz
      · refine le_trans ?_ (le_trans (le_rdiv_ceil hv g1) (by exact_mod_cast r.1))
        exact div_le_div_of_nonneg_left hz hc a2
      · refine le_trans ?_ (le_trans (le_rdiv_ceil hv g2) (by exact_mod_cast r.2))
        rw [div_le_div_iff₀ hy hd]
        exact mul_le_mul_of_nonpos_left b2 hz
  | sqrt s hs =>
    obtain ⟨i1, e1, h⟩ := bind_ok_of h
    obtain ⟨lo, f1, h⟩ := bind_ok_of h
    obtain ⟨hi, f2, h⟩ := bind_ok_of h
    cases h
    obtain ⟨a1, b1⟩ := hs i1 e1
    have ok0 : ∀ (x r : FP L P) (m : RoundMode), FP.rsqrt cfg x m = .ok r →
        IsRoundedSqrt P m (value x) (value r) := by
      intro x r m hx
      have hn : 0 ≤ value x := by
        by_contra hc
        rw [(C22_rsqrt_domain hv x m).2 (not_le.1 hc)] at hx; cases hx
      obtain ⟨s', h1, h2⟩ := C22_rsqrt hv x hn m
      rw [hx] at h1; cases h1; exact h2
    refine ⟨?_, ?_⟩
    · exact le_trans (ok0 _ _ _ f1).2.1 (Real.sqrt_le_sqrt a1)
    · exact le_trans (Real.sqrt_le_sqrt b1) (ok0 _ _ _ f2).2.2
  | half s t hs ht =>
    obtain ⟨i1, e1, h⟩ := bind_ok_of h
    obtain ⟨i2, e2, h⟩ := bind_ok_of h
    obtain ⟨lo, f1, h⟩ := bind_ok_of h
    obtain ⟨hi, f2, h⟩ := bind_ok_of h
    cases h
    obtain ⟨a1, b1⟩ := hs i1 e1
    obtain ⟨a2, b2⟩ := ht i2 e2
    obtain ⟨r1, k1, v1⟩ := C16_half_sum_directed (ε := ArithErr) cfg i1.1 i2.1 .floor (by simp)
    obtain ⟨r2, k2, v2⟩ := C16_half_sum_directed (ε := ArithErr) cfg i1.2 i2.2 .ceil (by simp)
    rw [f1] at k1; cases k1
    rw [f2] at k2; cases k2
    refine ⟨?_, ?_⟩
    · have := (roundTo_floor_spec P ((value i1.1 + value i2.1) / 2)).1
      rw [← v1] at this
      have t' : (value lo : ℝ) ≤ ((value i1.1 : ℝ) + value i2.1) / 2 := by exact_mod_cast this
      refine le_trans t' ?_
      show _ ≤ (s.exact + t.exact) / 2
      linarith
    · have := (roundTo_ceil_spec P ((value i1.2 + value i2.2) / 2)).1
      rw [← v2] at this
      have t' : ((value i1.2 : ℝ) + value i2.2) / 2 ≤ (value hi : ℝ) := by exact_mod_cast this
      refine le_trans ?_ t'
      show (s.exact + t.exact) / 2 ≤ _
      linarith

example := C69_interval (cfg := debugCfg) (by decide) (.mul (.lit (⟨50⟩ : FP .i64 2)) (.lit ⟨125⟩)) (⟨62⟩, ⟨63⟩)
  (by decide +kernel)

/-- (√2 · (0.5 − 1.25) + 3) / 0.7 -/
example : Term.bounds debugCfg (.div (.add (.mul (.sqrt (.lit (⟨200⟩ : FP .i64 2)))
      (.sub (.lit ⟨50⟩) (.lit ⟨125⟩))) (.lit ⟨300⟩)) (.lit ⟨70⟩)) =
    .ok (⟨275⟩, ⟨279⟩) := by decide +kernel

/-! ## C70 -/

/-- In every build, every quotient returned by division by an integer is the exact one rounded in
some direction. -/
theorem rdivInt_some {cfg : Cfg} {a r : FP L P} {n : BitVec L.bits} {mode : RoundMode}
    (h : FP.rdivInt cfg a n mode = .ok r) :
    n.toInt ≠ 0 ∧ ∃ m, value r = roundTo P m (value a / (n.toInt : ℚ)) := by
  have hn : n.toInt ≠ 0 := by
    intro hc
    rw [(C12_rdivInt_zero_iff cfg a n mode).2 hc] at h; cases h
  refine ⟨hn, ?_⟩
  have hmin : ¬ (a.inner.toInt = rawMin L ∧ n.toInt = -1) := by
    rintro ⟨h1, h2⟩
    unfold FP.rdivInt at h
    rw [intRdiv_min cfg _ _ mode h1 h2] at h; cases h
  by_cases hs : mode = .nearest → IntNearestSafe L.bits a.inner.toInt n.toInt
  · exact ⟨mode, ((C12_rdivInt_partial cfg a n mode hn hmin hs).ok_iff r).1 h⟩
  · push Not at hs
    obtain ⟨h1, h2⟩ := hs
    subst h1
    cases hc : cfg.overflowChecks
    · obtain ⟨r', h3, h4⟩ := C12_rdivInt_wrapped cfg hc a n hn h2
      rw [h] at h3; cases h3
      split at h4
      · exact ⟨_, h4⟩
      · exact ⟨_, h4⟩
    · rw [(C12_rdivInt_panics_iff cfg hc a n .nearest hn).2 (Or.inr ⟨rfl, h2⟩)] at h
      cases h

/-- One step of a calculation on an accumulator. -/
inductive Step (L : Layout) (P : Nat)
  | add (x : FP L P)
  | sub (x : FP L P)
  | neg
  | mulInt (n : BitVec L.bits)
  | mul (c : FP L P) (mode : RoundMode)
  | div (c : FP L P) (mode : RoundMode)
  | divInt (n : BitVec L.bits) (mode : RoundMode)
  | half (x : FP L P) (mode : RoundMode)

/-- The step as the crate performs it. -/
def Step.run (cfg : Cfg) : Step L P → FP L P → Res ArithErr (FP L P)
  | .add x, a => FP.cadd a x
  | .sub x, a => FP.csub a x
  | .neg, a => FP.cneg a
  | .mulInt n, a => FP.cmul a n
  | .mul c m, a => FP.rmul cfg a c m
  | .div c m, a => FP.rdiv cfg a c m
  | .divInt n m, a => FP.rdivInt cfg a n m
  | .half x m, a => FP.halfSum cfg a x m

/-- The step on rational numbers. -/
def Step.spec : Step L P → ℚ → ℚ
  | .add x, q => q + value x
  | .sub x, q => q - value x
  | .neg, q => -q
  | .mulInt n, q => q * (n.toInt : ℚ)
  | .mul c _, q => q * value c
  | .div c _, q => q / value c
  | .divInt n _, q => q / (n.toInt : ℚ)
  | .half x _, q => (q + value x) / 2

/-- The step does not enlarge differences: factors of magnitude at most one, divisors of magnitude
at least one. -/
def Step.Tame : Step L P → Prop
  | .mulInt n => |n.toInt| ≤ 1
  | .mul c _ => |value c| ≤ 1
  | .div c _ => 1 ≤ |value c|
  | _ => True

/-- The number of roundings of the step. -/
def Step.cost : Step L P → Nat
  | .add _ => 0
  | .sub _ => 0
  | .neg => 0
  | .mulInt _ => 0
  | _ => 1

/-- A sequence of steps, stopping at the first error. -/
def runProgram (cfg : Cfg) : List (Step L P) → FP L P → Res ArithErr (FP L P)
  | [], a => .ok a
  | s :: ss, a => do
    let b ← s.run cfg a
    runProgram cfg ss b

/-- The same sequence on rational numbers. -/
def specProgram : List (Step L P) → ℚ → ℚ
  | [], q => q
  | s :: ss, q => specProgram ss (s.spec q)

/-- A step performed by the crate is the exact step up to less than one unit. -/
theorem step_error {cfg : Cfg} (hv : Valid cfg L P) (s : Step L P) (a b : FP L P)
    (h : s.run cfg a = .ok b) : |value b - s.spec (value a)| ≤ s.cost * (1 / 10 ^ P) := by
  have hp := ten_pow_pos P
  cases s with
  | add x => rw [C01_cadd_ok _ _ _ h]; simp [Step.spec, Step.cost]
  | sub x => rw [C02_csub_ok _ _ _ h]; simp [Step.spec, Step.cost]
  | neg => rw [cneg_value h]; simp [Step.spec, Step.cost]
  | mulInt n => rw [((C03_cmul_exact a n).ok_iff b).1 h]; simp [Step.spec, Step.cost]
  | mul c m =>
    obtain ⟨m', h'⟩ := rmul_some hv h
    rw [h']
    have := (roundTo_error P m' (value a * value c)).le
    simpa [Step.spec, Step.cost] using this
  | div c m =>
    obtain ⟨m', h'⟩ := rdiv_some hv h
    rw [h']
    have := (roundTo_error P m' (value a / value c)).le
    simpa [Step.spec, Step.cost] using this
  | divInt n m =>
    obtain ⟨_, m', h'⟩ := rdivInt_some h
    rw [h']
    have := (roundTo_error P m' (value a / (n.toInt : ℚ))).le
    simpa [Step.spec, Step.cost] using this
  | half x m =>
    have h : FP.halfSum cfg a x m = .ok b := h
    show |value b - (value a + value x) / 2| ≤ ((1 : Nat) : ℚ) * (1 / 10 ^ P)
    by_cases hm : m = .nearest
    · subst hm
      obtain ⟨r, h1, h2⟩ := C16_half_sum_nearest (ε := ArithErr) cfg a x
      rw [h] at h1; cases h1
      rw [abs_sub_comm]
      refine le_trans h2 ?_
      have : (0 : ℚ) < 1 / 10 ^ P := by positivity
      push_cast; linarith
    · obtain ⟨r, h1, h2⟩ := C16_half_sum_directed (ε := ArithErr) cfg a x m hm
      rw [h] at h1; cases h1
      rw [h2]
      have := (roundTo_error P m ((value a + value x) / 2)).le
      simpa using this

theorem step_contract (s : Step L P) (ht : s.Tame) (p q : ℚ) :
    |s.spec p - s.spec q| ≤ |p - q| := by
  have h0 := abs_nonneg (p - q)
  cases s with
  | add x => simp [Step.spec]
  | sub x => simp [Step.spec]
  | neg =>
    simp only [Step.spec]
    rw [show -p - -q = -(p - q) by ring, abs_neg]
  | mulInt n =>
    simp only [Step.spec]
    rw [← sub_mul, abs_mul]
    exact mul_le_of_le_one_right h0 (by exact_mod_cast ht)
  | mul c m =>
    simp only [Step.spec]
    rw [← sub_mul, abs_mul]
    exact mul_le_of_le_one_right h0 ht
  | div c m =>
    simp only [Step.spec]
    rw [← sub_div, abs_div]
    exact div_le_self h0 ht
  | divInt n m =>
    simp only [Step.spec]
    rw [← sub_div, abs_div]
    by_cases hn : n.toInt = 0
    · rw [hn]; simp
    · apply div_le_self h0
      have : (1 : Int) ≤ |n.toInt| := Int.one_le_abs hn
      exact_mod_cast this
  | half x m =>
    simp only [Step.spec]
    rw [show (p + value x) / 2 - (q + value x) / 2 = (p - q) / 2 by ring, abs_div, abs_two]
    linarith

/-- C70: however long the calculation, the error is at most one unit per rounding; every build and
mode. -/
theorem C70_error_accumulates {cfg : Cfg} (hv : Valid cfg L P) (ss : List (Step L P))
    (a b : FP L P) (ht : ∀ s ∈ ss, s.Tame) (h : runProgram cfg ss a = .ok b) :
    |value b - specProgram ss (value a)| ≤
      (ss.map Step.cost).sum * value (FP.epsilon : FP L P) := by
  rw [C52_epsilon.1]
  have gen : ∀ (ss : List (Step L P)) (a b : FP L P) (q : ℚ), (∀ s ∈ ss, s.Tame) →
      runProgram cfg ss a = .ok b →
      |value b - specProgram ss q| ≤ |value a - q| + (ss.map Step.cost).sum * (1 / 10 ^ P) := by
    intro ss
    induction ss with
    | nil => intro a b q _ h; cases h; simp [specProgram]
    | cons s ss ih =>
      intro a b q ht h
      obtain ⟨c, h1, h2⟩ := bind_ok_of h
      have e1 := step_error hv s a c h1
      have e2 := step_contract s (ht s (by simp)) (value a) q
      have e3 := ih c b (s.spec q) (fun s hs => ht s (by simp [hs])) h2
      have e4 : |value c - s.spec q| ≤ s.cost * (1 / 10 ^ P) + |value a - q| := by
        have := abs_add_le (value c - s.spec (value a)) (s.spec (value a) - s.spec q)
        rw [show value c - s.spec (value a) + (s.spec (value a) - s.spec q) =
          value c - s.spec q by ring] at this
        linarith
      simp only [specProgram, List.map_cons, List.sum_cons]
      rw [Nat.cast_add, add_mul]
      linarith
  have := gen ss a b (value a) ht h
  simpa using this

example := C70_error_accumulates (cfg := debugCfg) (by decide) [.mul ⟨95⟩ .nearest, .add ⟨1⟩] (⟨10000⟩ : FP .i64 2) ⟨9501⟩
  (by
    intro s hs
    simp only [List.mem_cons, List.not_mem_nil, or_false] at hs
    rcases hs with rfl | rfl
    · show |value _| ≤ 1
      decide +kernel
    · trivial) (by decide +kernel)

/-- 100.00 · 0.95 · 0.95 / 3 (rounded down) + 0.01, halved with 7.77 -/
example : runProgram debugCfg [.mul ⟨95⟩ .nearest, .mul ⟨95⟩ .floor, .divInt 3 .floor, .add ⟨1⟩,
      .half ⟨777⟩ .ceil] (⟨10000⟩ : FP .i64 2) = .ok ⟨1893⟩ ∧
    ((Step.mul (⟨95⟩ : FP .i64 2) .nearest).cost = 1) := by decide +kernel

example : ∀ s ∈ [Step.mul (⟨95⟩ : FP .i64 2) .nearest, .div ⟨300⟩ .floor, .add ⟨1⟩], s.Tame := by
  have h1 : value (⟨95⟩ : FP .i64 2) = 95 / 100 := by
    rw [value_eq _ 95 (by decide +kernel)]; norm_num
  have h2 : value (⟨300⟩ : FP .i64 2) = 3 := by
    rw [value_eq _ 300 (by decide +kernel)]; norm_num
  simp only [List.mem_cons, List.not_mem_nil, or_false, forall_eq_or_imp, forall_eq, Step.Tame, h1,
    h2, and_true]
  norm_num

/-! ## C78 -/

/-- The factor by which the step enlarges a difference. -/
def Step.gain : Step L P → ℚ
  | .mulInt n => |(n.toInt : ℚ)|
  | .mul c _ => |value c|
  | .div c _ => 1 / |value c|
  | .divInt n _ => 1 / |(n.toInt : ℚ)|
  | .half _ _ => 1 / 2
  | _ => 1

/-- The error of the step itself, in units: none for the exact ones, a half for `Nearest` if overflow
checks are on (`checked`), one otherwise. -/
def Step.slack (checked : Bool) : Step L P → ℚ
  | .mul _ m | .div _ m | .divInt _ m => if checked ∧ m = .nearest then 1 / 2 else 1
  | .half _ m => if m = .nearest then 1 / 2 else 1
  | _ => 0

/-- A bound for the error after a sequence of steps, given one before it. -/
def errorBound (checked : Bool) (ε : ℚ) : List (Step L P) → ℚ → ℚ
  | [], e => e
  | s :: ss, e => errorBound checked ε ss (s.gain * e + s.slack checked * ε)

theorem slack_of {checked : Bool} {m m' : RoundMode} {q v : ℚ}
    (h : v = roundTo P m' q) (hc : checked = true ∧ m = .nearest → m' = .nearest) :
    |v - q| ≤ (if checked ∧ m = .nearest then 1 / 2 else 1) * (1 / 10 ^ P) := by
  rw [h]
  split
  · rename_i hn
    rw [hc hn, abs_sub_comm]
    have := roundTo_nearest_error P q
    rw [abs_sub_comm] at this
    refine le_trans this (le_of_eq (by ring))
  · rw [one_mul]; exact (roundTo_error P m' q).le

theorem step_slack {cfg : Cfg} (hv : Valid cfg L P) (s : Step L P) (a b : FP L P)
    (h : s.run cfg a = .ok b) :
    |value b - s.spec (value a)| ≤ s.slack cfg.overflowChecks * (1 / 10 ^ P) := by
  have hp := ten_pow_pos P
  cases s with
  | add x => rw [C01_cadd_ok _ _ _ h]; simp [Step.spec, Step.slack]
  | sub x => rw [C02_csub_ok _ _ _ h]; simp [Step.spec, Step.slack]
  | neg => rw [cneg_value h]; simp [Step.spec, Step.slack]
  | mulInt n => rw [((C03_cmul_exact a n).ok_iff b).1 h]; simp [Step.spec, Step.slack]
  | mul c m =>
    have h : FP.rmul cfg a c m = .ok b := h
    by_cases hc : cfg.overflowChecks = true ∧ m = .nearest
    · have hs : RmulSafe L P (a.inner.toInt * c.inner.toInt) := by
        by_contra hs
        rw [hc.2, (C07_rmul_panics_iff hv hc.1 a c).2 hs] at h
        cases h
      have e := ((C07_rmul_remainder_partial hv a c m fun _ => hs).ok_iff b).1 h
      exact slack_of e fun _ => hc.2
    · obtain ⟨m', h'⟩ := rmul_some hv h
      exact slack_of h' fun h => absurd h hc
  | div c m =>
    have h : FP.rdiv cfg a c m = .ok b := h
    by_cases hc : cfg.overflowChecks = true ∧ m = .nearest
    · have h0 : value c ≠ 0 := by
        intro h0
        rw [(C10_rdiv_zero_iff hv a c m).2 h0] at h; cases h
      have hs : NearestSafe L (a.inner.toInt * 10 ^ P) c.inner.toInt := by
        by_contra hs
        rw [hc.2, (C11_rdiv_nearest_panics_iff hv hc.1 a c h0).2 hs] at h
        cases h
      rw [hc.2] at h
      have e := ((C11_rdiv_nearest_partial hv a c h0 hs).ok_iff b).1 h
      exact slack_of e fun _ => rfl
    · obtain ⟨m', h'⟩ := rdiv_some hv h
      exact slack_of h' fun h => absurd h hc
  | divInt n m =>
    have h : FP.rdivInt cfg a n m = .ok b := h
    by_cases hc : cfg.overflowChecks = true ∧ m = .nearest
    · have h0 : n.toInt ≠ 0 := (rdivInt_some h).1
      have hmin : ¬ (a.inner.toInt = rawMin L ∧ n.toInt = -1) := by
        rintro ⟨h1, h2⟩
        unfold FP.rdivInt at h
        rw [intRdiv_min cfg _ _ m h1 h2] at h; cases h
      have hs : IntNearestSafe L.bits a.inner.toInt n.toInt := by
        by_contra hs
        rw [hc.2, (C12_rdivInt_panics_iff cfg hc.1 a n .nearest h0).2 (Or.inr ⟨rfl, hs⟩)] at h
        cases h
      have e := ((C12_rdivInt_partial cfg a n m h0 hmin fun _ => hs).ok_iff b).1 h
      exact slack_of e fun _ => hc.2
    · obtain ⟨_, m', h'⟩ := rdivInt_some h
      exact slack_of h' fun h => absurd h hc
  | half x m =>
    have h : FP.halfSum cfg a x m = .ok b := h
    show |value b - (value a + value x) / 2| ≤ (if m = .nearest then 1 / 2 else 1) * (1 / 10 ^ P)
    by_cases hm : m = .nearest
    · subst hm
      obtain ⟨r, h1, h2⟩ := C16_half_sum_nearest (ε := ArithErr) cfg a x
      rw [h] at h1; cases h1
      rw [abs_sub_comm, if_pos rfl]
      exact h2
    · obtain ⟨r, h1, h2⟩ := C16_half_sum_directed (ε := ArithErr) cfg a x m hm
      rw [h] at h1; cases h1
      rw [h2, if_neg hm, one_mul]
      exact (roundTo_error P m ((value a + value x) / 2)).le

theorem step_gain (s : Step L P) (p q : ℚ) : |s.spec p - s.spec q| = s.gain * |p - q| := by
  cases s with
  | add x => simp [Step.spec, Step.gain]
  | sub x => simp [Step.spec, Step.gain]
  | neg =>
    simp only [Step.spec, Step.gain]
    rw [show -p - -q = -(p - q) by ring, abs_neg, one_mul]
  | mulInt n => simp only [Step.spec, Step.gain]; rw [← sub_mul, abs_mul, mul_comm]
  | mul c m => simp only [Step.spec, Step.gain]; rw [← sub_mul, abs_mul, mul_comm]
  | div c m => simp only [Step.spec, Step.gain]; rw [← sub_div, abs_div]; ring
  | divInt n m => simp only [Step.spec, Step.gain]; rw [← sub_div, abs_div]; ring
  | half x m =>
    simp only [Step.spec, Step.gain]
    rw [show (p + value x) / 2 - (q + value x) / 2 = (p - q) / 2 by ring, abs_div, abs_two]
    ring

theorem gain_nonneg (s : Step L P) : 0 ≤ s.gain := by
  cases s <;> simp [Step.gain]

theorem errorBound_mono (checked : Bool) (ε : ℚ) (ss : List (Step L P)) {e e' : ℚ} (h : e ≤ e') :
    errorBound checked ε ss e ≤ errorBound checked ε ss e' := by
  induction ss generalizing e e' with
  | nil => exact h
  | cons s ss ih =>
    apply ih
    have := mul_le_mul_of_nonneg_left h (gain_nonneg s)
    linarith

/-- C78: the error of any calculation, with factors of any size: an error made by one step is
multiplied by the factors of the later steps.  The starting value may itself be off by `|value a - q|`. -/
theorem C78_error_bound {cfg : Cfg} (hv : Valid cfg L P) (ss : List (Step L P)) (a b : FP L P)
    (q : ℚ) (h : runProgram cfg ss a = .ok b) :
    |value b - specProgram ss q| ≤
      errorBound cfg.overflowChecks (value (FP.epsilon : FP L P)) ss |value a - q| := by
  rw [C52_epsilon.1]
  induction ss generalizing a q with
  | nil => cases h; exact le_refl _
  | cons s ss ih =>
    obtain ⟨c, h1, h2⟩ := bind_ok_of h
    refine le_trans (ih c (s.spec q) h2) ?_
    apply errorBound_mono
    have e1 := step_slack hv s a c h1
    rw [← step_gain]
    have := abs_add_le (value c - s.spec (value a)) (s.spec (value a) - s.spec q)
    rw [show value c - s.spec (value a) + (s.spec (value a) - s.spec q) =
      value c - s.spec q by ring] at this
    linarith

example := C78_error_bound (cfg := debugCfg) (by decide)
  [.mul (⟨30⟩ : FP .i64 1) .nearest, .neg, .add ⟨5⟩] ⟨15⟩ ⟨-40⟩ (3 / 2) (by decide +kernel)

theorem errorBound_geometric (checked : Bool) {ε g e : ℚ} (hε : 0 ≤ ε) (he : 0 ≤ e)
    (ss : List (Step L P)) (hg : ∀ s ∈ ss, s.gain ≤ g) :
    errorBound checked ε ss e ≤ g ^ ss.length * e + ε * ∑ i ∈ Finset.range ss.length, g ^ i := by
  induction ss generalizing e with
  | nil => simp [errorBound]
  | cons s ss ih =>
    have h1 := hg s (by simp)
    have g0 : 0 ≤ g := (gain_nonneg s).trans h1
    have hs : s.slack checked ≤ 1 := by
      cases s <;> simp only [Step.slack] <;> (try split) <;> norm_num
    have hs0 : 0 ≤ s.slack checked := by
      cases s <;> simp only [Step.slack] <;> (try split) <;> norm_num
    have h2 := ih (e := s.gain * e + s.slack checked * ε)
      (add_nonneg (mul_nonneg (gain_nonneg s) he) (mul_nonneg hs0 hε))
      fun t ht => hg t (by simp [ht])
    have h3 : s.gain * e + s.slack checked * ε ≤ g * e + ε := by
      have := mul_le_mul_of_nonneg_right h1 he
      have := mul_le_mul_of_nonneg_right hs hε
      linarith
    have h4 := mul_le_mul_of_nonneg_left h3 (pow_nonneg g0 ss.length)
    rw [List.length_cons, Finset.sum_range_succ, pow_succ]
    show errorBound checked ε ss (s.gain * e + s.slack checked * ε) ≤ _
    linarith

/-- C78: the bound in closed form for a sequence of `n` steps that share a bound `g` on the factor:
`EPSILON · (1 + g + … + g^(n-1))`. -/
theorem C78_geometric {cfg : Cfg} (hv : Valid cfg L P) (ss : List (Step L P)) (a b : FP L P)
    (g : ℚ) (hg : ∀ s ∈ ss, s.gain ≤ g) (h : runProgram cfg ss a = .ok b) :
    |value b - specProgram ss (value a)| ≤
      value (FP.epsilon : FP L P) * ∑ i ∈ Finset.range ss.length, g ^ i := by
  refine le_trans (C78_error_bound hv ss a b (value a) h) ?_
  have he : (0 : ℚ) ≤ value (FP.epsilon : FP L P) := by
    rw [C52_epsilon.1]; have := ten_pow_pos P; positivity
  have := errorBound_geometric cfg.overflowChecks he (le_refl 0) ss hg
  rw [sub_self, abs_zero]
  linarith

example := C78_geometric (cfg := debugCfg) (L := .i64) (P := 2) (by decide)
  [.mul ⟨50⟩ .floor, .mul ⟨50⟩ .floor] ⟨12345⟩ ⟨3086⟩ (1 / 2)
  (by
    intro s hs
    simp only [List.mem_cons, List.not_mem_nil, or_false] at hs
    rcases hs with rfl | rfl <;> (simp only [Step.gain]; decide +kernel)) (by decide +kernel)

-- 123.45 · 7.5 · 7.5 / 0.03, each to nearest, is off by 1.25 and may be by 1.42…
example : runProgram debugCfg [.mul ⟨750⟩ .nearest, .mul ⟨750⟩ .nearest, .div ⟨3⟩ .nearest]
      (⟨12345⟩ : FP .i64 2) = .ok ⟨23147000⟩ ∧
    errorBound debugCfg.overflowChecks (1 / 100)
      ([.mul ⟨750⟩ .nearest, .mul ⟨750⟩ .nearest, .div ⟨3⟩ .nearest] : List (Step .i64 2)) 0 = 853 / 600 ∧
    |(231470 : ℚ) - 12345 / 100 * (15 / 2) * (15 / 2) / (3 / 100)| = 5 / 4 := by
  have h1 : (750 : BitVec Layout.i64.bits).toInt = 750 := by decide
  have h2 : (3 : BitVec Layout.i64.bits).toInt = 3 := by decide
  refine ⟨by decide +kernel, ?_, by norm_num [abs_of_pos]⟩
  simp only [errorBound, Step.gain, Step.slack, value, debugCfg, h1, h2]
  norm_num [abs_of_pos]

/-! ## C71 -/

/-- C71: splitting a non-negative amount into `n` parts.  The part `q` rounded down exists, so does
`q · n`, and the remainder `r` is less than `n` units; if there is a remainder, `q + EPSILON` exists,
and `r / EPSILON` parts of `q + EPSILON` with `n - r / EPSILON` parts of `q` make up the amount
exactly. -/
theorem C71_split (cfg : Cfg) (x : FP L P) (n : BitVec L.bits) (hx : 0 ≤ value x)
    (hn : 0 < n.toInt) :
    ∃ q s r, FP.rdivInt cfg x n .floor = .ok q ∧ FP.cmul q n = .ok s ∧ FP.csub x s = .ok r ∧
      ∃ k : Nat, (k : Int) < n.toInt ∧ value r = k * value (FP.epsilon : FP L P) ∧
        (0 < k → ∃ q', FP.cadd q FP.epsilon = .ok q') ∧
        k * (value q + value (FP.epsilon : FP L P)) + (n.toInt - k) * value q = value x := by
  have hp := ten_pow_pos P
  have hpn := ten_pow_ne P
  have hw := bits_pos L
  have hhalf := half_pos L
  have hx0 : 0 ≤ x.inner.toInt := by
    unfold value at hx
    rw [le_div_iff₀ hp, zero_mul] at hx
    exact_mod_cast hx
  have fx := (fits_half L _).1 (toInt_fits x.inner)
  set a := x.inner.toInt with ha
  set d := n.toInt with hd
  have hdm := Int.mul_ediv_add_emod a d
  have hm0 := Int.emod_nonneg a (by omega : d ≠ 0)
  have hm1 := Int.emod_lt_of_pos a hn
  have hq0 : 0 ≤ a / d := Int.ediv_nonneg hx0 hn.le
  have hqa : a / d ≤ a := Int.ediv_le_self _ hx0
  have hround : roundTo P .floor (value x / (d : ℚ)) = ((a / d : Int) : ℚ) / 10 ^ P := by
    unfold roundTo
    congr 2
    have e : value x / (d : ℚ) * 10 ^ P = (a : ℚ) / d := by
      unfold value; rw [← ha]; field_simp
    rw [e]
    simp only [Spec.round]
    have hdq : (0 : ℚ) < d := by exact_mod_cast hn
    have hdm' : (d : ℚ) * ((a / d : Int) : ℚ) + ((a % d : Int) : ℚ) = a := by exact_mod_cast hdm
    have hm0' : (0 : ℚ) ≤ ((a % d : Int) : ℚ) := by exact_mod_cast hm0
    have hm1' : ((a % d : Int) : ℚ) < d := by exact_mod_cast hm1
    rw [Int.floor_eq_iff]
    constructor
    · rw [le_div_iff₀ hdq]; linarith
    · rw [div_lt_iff₀ hdq]; linarith
  have hfit : Fits L.bits (a / d) := by rw [fits_half]; omega
  have hX := C12_rdivInt_partial cfg x n .floor (by omega) (by omega) (by simp)
  rw [← hd, hround] at hX
  obtain ⟨q, h1, v1⟩ := hX.1 ((representable_iff _).2 hfit)
  have hS : Representable L P (value q * (d : ℚ)) := by
    rw [v1, show ((a / d : Int) : ℚ) / 10 ^ P * (d : ℚ) = ((d * (a / d) : Int) : ℚ) / 10 ^ P by
      push_cast; ring, representable_iff, fits_half]
    have : 0 ≤ d * (a / d) := Int.mul_nonneg hn.le hq0
    omega
  obtain ⟨s, h2, v2⟩ := (C03_cmul_exact q n).1 hS
  rw [← hd] at v2
  have er : value x - value s = ((a % d : Int) : ℚ) / 10 ^ P := by
    have hdm' : (d : ℚ) * ((a / d : Int) : ℚ) + ((a % d : Int) : ℚ) = a := by exact_mod_cast hdm
    rw [v2, v1]; unfold value; rw [← ha]
    field_simp
    linarith
  have hR : Representable L P (value x - value s) := by
    rw [er, representable_iff, fits_half]
    have : 0 ≤ d * (a / d) := Int.mul_nonneg hn.le hq0
    omega
  obtain ⟨r, h3, v3⟩ := (C02_csub_exact x s).1 hR
  refine ⟨q, s, r, h1, h2, h3, (a % d).toNat, by omega, ?_, ?_, ?_⟩
  · rw [v3, er, C52_epsilon.1]
    have : (((a % d).toNat : Int) : ℚ) = ((a % d : Int) : ℚ) := by rw [Int.toNat_of_nonneg hm0]
    rw [← this]; push_cast; ring
  · intro hk
    have hR' : Representable L P (value q + value (FP.epsilon : FP L P)) := by
      rw [v1, C52_epsilon.1, ← add_div,
        show ((a / d : Int) : ℚ) + 1 = ((a / d + 1 : Int) : ℚ) by push_cast; ring,
        representable_iff, fits_half]
      have : a / d ≤ d * (a / d) := le_mul_of_one_le_left hq0 hn
      omega
    obtain ⟨q', h, _⟩ := (C01_cadd_exact q FP.epsilon).1 hR'
    exact ⟨q', h⟩
  · have e : (((a % d).toNat : Nat) : ℚ) = ((a % d : Int) : ℚ) := by
      have : (((a % d).toNat : Int) : ℚ) = ((a % d : Int) : ℚ) := by rw [Int.toNat_of_nonneg hm0]
      rw [← this]; push_cast; rfl
    have hdm' : (d : ℚ) * ((a / d : Int) : ℚ) + ((a % d : Int) : ℚ) = a := by exact_mod_cast hdm
    rw [e, v1, C52_epsilon.1]; unfold value; rw [← ha]
    field_simp
    linarith

example := C71_split debugCfg (⟨10000⟩ : FP .i64 2) 3 (by decide +kernel) (by decide)

example : 0 < (3 : BitVec 64).toInt ∧ FP.rdivInt debugCfg (⟨10000⟩ : FP .i64 2) 3 .floor = .ok ⟨3333⟩ ∧
    FP.cmul (⟨3333⟩ : FP .i64 2) 3 = .ok ⟨9999⟩ ∧
    FP.csub (⟨10000⟩ : FP .i64 2) ⟨9999⟩ = .ok ⟨1⟩ := by decide +kernel

/-- Outside C71: a negative amount, the part rounded down times `n` can overflow. -/
theorem C71_outside_domain :
    FP.rdivInt debugCfg (FP.min : FP .i64 2) 3 .floor = .ok ⟨-3074457345618258603⟩ ∧
    FP.cmul (⟨-3074457345618258603⟩ : FP .i64 2) 3 = .err .overflow := by decide +kernel

/-- C71: two halves, one rounded down and one rounded up, make up the whole. -/
theorem C71_halves (cfg : Cfg) (a b : FP L P) :
    ∃ f c, (FP.halfSum cfg a b .floor : Res ε (FP L P)) = .ok f ∧
      (FP.halfSum cfg a b .ceil : Res ε (FP L P)) = .ok c ∧
      value f + value c = value a + value b := by
  obtain ⟨f, h1, v1⟩ := C16_half_sum_directed (ε := ε) cfg a b .floor (by simp)
  obtain ⟨c, h2, v2⟩ := C16_half_sum_directed (ε := ε) cfg a b .ceil (by simp)
  refine ⟨f, c, h1, h2, ?_⟩
  have hp := ten_pow_pos P
  rw [v1, v2]
  unfold roundTo value Spec.round
  set n := a.inner.toInt + b.inner.toInt with hn
  have e : ((a.inner.toInt : ℚ) / 10 ^ P + (b.inner.toInt : ℚ) / 10 ^ P) / 2 * 10 ^ P =
      (n : ℚ) / 2 := by
    rw [hn]; push_cast; field_simp
  rw [e, ← add_div, ← add_div]
  congr 1
  have : (⌊(n : ℚ) / 2⌋ + ⌈(n : ℚ) / 2⌉ : Int) = n := by
    rcases Int.even_or_odd' n with ⟨k, hk | hk⟩
    · have : (n : ℚ) / 2 = (k : ℚ) := by rw [hk]; push_cast; ring
      rw [this, Int.floor_intCast, Int.ceil_intCast]; omega
    · have h1 : ⌊(n : ℚ) / 2⌋ = k := by
        rw [Int.floor_eq_iff, hk]; push_cast; constructor <;> linarith
      have h2 : ⌈(n : ℚ) / 2⌉ = k + 1 := by
        rw [Int.ceil_eq_iff, hk]; push_cast; constructor <;> linarith
      rw [h1, h2]; omega
  rw [hn] at this
  exact_mod_cast this

example : (FP.halfSum debugCfg (⟨-3⟩ : FP .i64 2) ⟨-6⟩ .floor : Res Unit _) = .ok ⟨-5⟩ ∧
    (FP.halfSum debugCfg (⟨-3⟩ : FP .i64 2) ⟨-6⟩ .ceil : Res Unit _) = .ok ⟨-4⟩ := by decide +kernel

end Fixnum
