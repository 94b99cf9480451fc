import Verif.Props.Programs

/-!
# Property C83: the laws of arithmetic that survive rounding

Rounding breaks associativity and distributivity; here is how far, and which laws hold exactly.
-/

namespace Fixnum
open Res Spec

variable {L : Layout} {P : Nat} {ε : Type}

/-- C83: products in either order of bracketing, any modes, every build: they differ by less than
`EPSILON` times `|a| + |c| + 2`. -/
theorem C83_mul_assoc {cfg : Cfg} (hv : Valid cfg L P) (a b c ab bc x y : FP L P)
    (m₁ m₂ m₃ m₄ : RoundMode) (h1 : FP.rmul cfg a b m₁ = .ok ab) (h2 : FP.rmul cfg ab c m₂ = .ok x)
    (h3 : FP.rmul cfg b c m₃ = .ok bc) (h4 : FP.rmul cfg a bc m₄ = .ok y) :
    |value x - value y| < value (FP.epsilon : FP L P) * (|value a| + |value c| + 2) := by
  rw [C52_epsilon.1]
  obtain ⟨n₁, e1⟩ := rmul_some hv h1
  obtain ⟨n₂, e2⟩ := rmul_some hv h2
  obtain ⟨n₃, e3⟩ := rmul_some hv h3
  obtain ⟨n₄, e4⟩ := rmul_some hv h4
  have f1 := roundTo_error P n₁ (value a * value b)
  have f2 := roundTo_error P n₂ (value ab * value c)
  have f3 := roundTo_error P n₃ (value b * value c)
  have f4 := roundTo_error P n₄ (value a * value bc)
  rw [← e1] at f1; rw [← e2] at f2; rw [← e3] at f3; rw [← e4] at f4
  have g1 : |(value ab - value a * value b) * value c| ≤ 1 / 10 ^ P * |value c| := by
    rw [abs_mul]; exact mul_le_mul_of_nonneg_right f1.le (abs_nonneg _)
  have g3 : |value a * (value bc - value b * value c)| ≤ |value a| * (1 / 10 ^ P) := by
    rw [abs_mul]; exact mul_le_mul_of_nonneg_left f3.le (abs_nonneg _)
  rw [abs_lt] at f2 f4 ⊢
  rw [abs_le] at g1 g3
  constructor <;> nlinarith

example := C83_mul_assoc (cfg := debugCfg) (by decide) (⟨15⟩ : FP .i64 1) ⟨25⟩ ⟨33⟩ ⟨37⟩ ⟨83⟩ ⟨122⟩
  ⟨125⟩ .floor .floor .nearest .ceil (by decide +kernel) (by decide +kernel) (by decide +kernel)
  (by decide +kernel)

/-- Rounding a sum and summing the rounded, `Floor`. -/
theorem roundTo_floor_add (P : Nat) (p q : ℚ) :
    roundTo P .floor p + roundTo P .floor q ≤ roundTo P .floor (p + q) ∧
    roundTo P .floor (p + q) ≤ roundTo P .floor p + roundTo P .floor q + 1 / 10 ^ P := by
  have hp := ten_pow_pos P
  unfold roundTo
  rw [← add_div, ← add_div, div_le_div_iff_of_pos_right hp, div_le_div_iff_of_pos_right hp, add_mul]
  simp only [Spec.round]
  constructor
  · exact_mod_cast Int.le_floor_add _ _
  · have := Int.le_floor_add_floor (p * 10 ^ P) (q * 10 ^ P)
    have h : ⌊p * 10 ^ P + q * 10 ^ P⌋ ≤ ⌊p * 10 ^ P⌋ + ⌊q * 10 ^ P⌋ + 1 := by omega
    exact_mod_cast h

/-- Rounding a sum and summing the rounded, `Ceil`. -/
theorem roundTo_ceil_add (P : Nat) (p q : ℚ) :
    roundTo P .ceil p + roundTo P .ceil q - 1 / 10 ^ P ≤ roundTo P .ceil (p + q) ∧
    roundTo P .ceil (p + q) ≤ roundTo P .ceil p + roundTo P .ceil q := by
  have h := roundTo_floor_add P (-p) (-q)
  rw [← neg_add, roundTo_neg, roundTo_neg, roundTo_neg] at h
  simp only [Spec.flip] at h
  constructor <;> linarith

/-- Two values of a type that differ by less than two units differ by at most one. -/
theorem value_gap (x y z : FP L P) (k : Int)
    (h : |value x - (value y + value z)| < ((k + 1 : Int) : ℚ) * (1 / 10 ^ P)) :
    |value x - (value y + value z)| ≤ (k : ℚ) * (1 / 10 ^ P) := by
  have hp := ten_pow_pos P
  have e : value x - (value y + value z) =
      ((x.inner.toInt - (y.inner.toInt + z.inner.toInt) : Int) : ℚ) / 10 ^ P := by
    unfold value; push_cast; ring
  rw [e, abs_div, abs_of_pos hp, mul_one_div] at h ⊢
  rw [div_lt_div_iff_of_pos_right hp] at h
  rw [div_le_div_iff_of_pos_right hp]
  rw [← Int.cast_abs] at h ⊢
  have : |x.inner.toInt - (y.inner.toInt + z.inner.toInt)| < k + 1 := by exact_mod_cast h
  have : |x.inner.toInt - (y.inner.toInt + z.inner.toInt)| ≤ k := by omega
  exact_mod_cast this

/-- C83: multiplying a sum, and summing the products: any modes, every build, at most two units
apart. -/
theorem C83_distrib {cfg : Cfg} (hv : Valid cfg L P) (a b s c x y z : FP L P)
    (m₁ m₂ m₃ : RoundMode) (hs : FP.cadd a b = .ok s) (h1 : FP.rmul cfg s c m₁ = .ok x)
    (h2 : FP.rmul cfg a c m₂ = .ok y) (h3 : FP.rmul cfg b c m₃ = .ok z) :
    |value x - (value y + value z)| ≤ 2 * value (FP.epsilon : FP L P) := by
  rw [C52_epsilon.1]
  obtain ⟨n₁, e1⟩ := rmul_some hv h1
  obtain ⟨n₂, e2⟩ := rmul_some hv h2
  obtain ⟨n₃, e3⟩ := rmul_some hv h3
  have f1 := roundTo_error P n₁ (value s * value c)
  have f2 := roundTo_error P n₂ (value a * value c)
  have f3 := roundTo_error P n₃ (value b * value c)
  rw [← e1, C01_cadd_ok _ _ _ hs] at f1; rw [← e2] at f2; rw [← e3] at f3
  refine value_gap x y z 2 ?_
  rw [abs_lt] at f1 f2 f3 ⊢
  push_cast
  constructor <;> linarith

example := C83_distrib (cfg := debugCfg) (by decide) (⟨15⟩ : FP .i64 1) ⟨25⟩ ⟨40⟩ ⟨33⟩ ⟨132⟩ ⟨49⟩ ⟨83⟩
  .ceil .floor .nearest (by decide +kernel) (by decide +kernel) (by decide +kernel)
  (by decide +kernel)

/-- C83: with `Floor` throughout the products of the parts are never more than the product of the
sum, and at most one unit less. -/
theorem C83_distrib_floor {cfg : Cfg} (hv : Valid cfg L P) (a b s c x y z : FP L P)
    (hs : FP.cadd a b = .ok s) (h1 : FP.rmul cfg s c .floor = .ok x)
    (h2 : FP.rmul cfg a c .floor = .ok y) (h3 : FP.rmul cfg b c .floor = .ok z) :
    value y + value z ≤ value x ∧
      value x ≤ value y + value z + value (FP.epsilon : FP L P) := by
  rw [C52_epsilon.1]
  have d (u v w : FP L P) (h : FP.rmul cfg u v .floor = .ok w) :=
    ((C07_rmul_partial hv u v .floor (by simp)).ok_iff w).1 h
  rw [d _ _ _ h1, d _ _ _ h2, d _ _ _ h3, C01_cadd_ok _ _ _ hs, add_mul]
  exact roundTo_floor_add P _ _

example := C83_distrib_floor (cfg := debugCfg) (by decide) (⟨15⟩ : FP .i64 1) ⟨25⟩ ⟨40⟩ ⟨33⟩ ⟨132⟩ ⟨49⟩
  ⟨82⟩ (by decide +kernel) (by decide +kernel) (by decide +kernel) (by decide +kernel)

/-- C83: with `Ceil` throughout, the other way round. -/
theorem C83_distrib_ceil {cfg : Cfg} (hv : Valid cfg L P) (a b s c x y z : FP L P)
    (hs : FP.cadd a b = .ok s) (h1 : FP.rmul cfg s c .ceil = .ok x)
    (h2 : FP.rmul cfg a c .ceil = .ok y) (h3 : FP.rmul cfg b c .ceil = .ok z) :
    value x ≤ value y + value z ∧
      value y + value z ≤ value x + value (FP.epsilon : FP L P) := by
  rw [C52_epsilon.1]
  have d (u v w : FP L P) (h : FP.rmul cfg u v .ceil = .ok w) :=
    ((C07_rmul_partial hv u v .ceil (by simp)).ok_iff w).1 h
  rw [d _ _ _ h1, d _ _ _ h2, d _ _ _ h3, C01_cadd_ok _ _ _ hs, add_mul]
  have := roundTo_ceil_add P (value a * value c) (value b * value c)
  constructor <;> linarith

example := C83_distrib_ceil (cfg := debugCfg) (by decide) (⟨15⟩ : FP .i64 1) ⟨25⟩ ⟨40⟩ ⟨33⟩ ⟨132⟩ ⟨50⟩
  ⟨83⟩ (by decide +kernel) (by decide +kernel) (by decide +kernel) (by decide +kernel)

/-- C83: dividing a sum, and summing the quotients: any modes, every build, at most two units. -/
theorem C83_div_distrib {cfg : Cfg} (hv : Valid cfg L P) (a b s c x y z : FP L P)
    (m₁ m₂ m₃ : RoundMode) (hs : FP.cadd a b = .ok s) (h1 : FP.rdiv cfg s c m₁ = .ok x)
    (h2 : FP.rdiv cfg a c m₂ = .ok y) (h3 : FP.rdiv cfg b c m₃ = .ok z) :
    |value x - (value y + value z)| ≤ 2 * value (FP.epsilon : FP L P) := by
  rw [C52_epsilon.1]
  obtain ⟨n₁, e1⟩ := rdiv_some hv h1
  obtain ⟨n₂, e2⟩ := rdiv_some hv h2
  obtain ⟨n₃, e3⟩ := rdiv_some hv h3
  have f1 := roundTo_error P n₁ (value s / value c)
  have f2 := roundTo_error P n₂ (value a / value c)
  have f3 := roundTo_error P n₃ (value b / value c)
  rw [← e1, C01_cadd_ok _ _ _ hs, add_div] at f1; rw [← e2] at f2; rw [← e3] at f3
  refine value_gap x y z 2 ?_
  rw [abs_lt] at f1 f2 f3 ⊢
  push_cast
  constructor <;> linarith

example := C83_div_distrib (cfg := debugCfg) (by decide) (⟨15⟩ : FP .i64 1) ⟨25⟩ ⟨40⟩ ⟨33⟩ ⟨13⟩ ⟨4⟩ ⟨8⟩
  .ceil .floor .nearest (by decide +kernel) (by decide +kernel) (by decide +kernel)
  (by decide +kernel)

/-- C83: with `Floor` throughout the quotients of the parts never add up to more than the quotient
of the sum, and to at most one unit less: a sum split in shares loses at most one unit per share. -/
theorem C83_div_distrib_floor {cfg : Cfg} (hv : Valid cfg L P) (a b s c x y z : FP L P)
    (hs : FP.cadd a b = .ok s) (h1 : FP.rdiv cfg s c .floor = .ok x)
    (h2 : FP.rdiv cfg a c .floor = .ok y) (h3 : FP.rdiv cfg b c .floor = .ok z) :
    value y + value z ≤ value x ∧
      value x ≤ value y + value z + value (FP.epsilon : FP L P) := by
  rw [C52_epsilon.1]
  have d (u v w : FP L P) (h : FP.rdiv cfg u v .floor = .ok w) :=
    ((C10_rdiv_directed hv u v .floor (by simp) (rdiv_ok_ne_zero hv h)).ok_iff w).1 h
  rw [d _ _ _ h1, d _ _ _ h2, d _ _ _ h3, C01_cadd_ok _ _ _ hs, add_div]
  exact roundTo_floor_add P _ _

example := C83_div_distrib_floor (cfg := debugCfg) (by decide) (⟨15⟩ : FP .i64 1) ⟨25⟩ ⟨40⟩ ⟨33⟩ ⟨12⟩
  ⟨4⟩ ⟨7⟩ (by decide +kernel) (by decide +kernel) (by decide +kernel) (by decide +kernel)

/-- C83: with `Ceil` throughout, the other way round. -/
theorem C83_div_distrib_ceil {cfg : Cfg} (hv : Valid cfg L P) (a b s c x y z : FP L P)
    (hs : FP.cadd a b = .ok s) (h1 : FP.rdiv cfg s c .ceil = .ok x)
    (h2 : FP.rdiv cfg a c .ceil = .ok y) (h3 : FP.rdiv cfg b c .ceil = .ok z) :
    value x ≤ value y + value z ∧
      value y + value z ≤ value x + value (FP.epsilon : FP L P) := by
  rw [C52_epsilon.1]
  have d (u v w : FP L P) (h : FP.rdiv cfg u v .ceil = .ok w) :=
    ((C10_rdiv_directed hv u v .ceil (by simp) (rdiv_ok_ne_zero hv h)).ok_iff w).1 h
  rw [d _ _ _ h1, d _ _ _ h2, d _ _ _ h3, C01_cadd_ok _ _ _ hs, add_div]
  have := roundTo_ceil_add P (value a / value c) (value b / value c)
  constructor <;> linarith

example := C83_div_distrib_ceil (cfg := debugCfg) (by decide) (⟨15⟩ : FP .i64 1) ⟨25⟩ ⟨40⟩ ⟨33⟩ ⟨13⟩ ⟨5⟩
  ⟨8⟩ (by decide +kernel) (by decide +kernel) (by decide +kernel) (by decide +kernel)

/-- Directed rounding in two steps: of the value, then of the value divided by a positive integer. -/
theorem roundTo_steps (P : Nat) {mode : RoundMode} (hm : mode ≠ .nearest) (q : ℚ) {m : Int}
    (hm0 : 0 < m) : roundTo P mode (roundTo P mode q / m) = roundTo P mode (q / m) := by
  have hp := ten_pow_ne P
  have hq : (0 : ℚ) < m := by exact_mod_cast hm0
  have fl (x : ℚ) : ⌊(⌊x⌋ : ℚ) / m⌋ = ⌊x / m⌋ := by
    apply eq_of_forall_le_iff
    intro z
    rw [Int.le_floor, Int.le_floor, le_div_iff₀ hq, le_div_iff₀ hq]
    have : ((z : ℚ) * m) = ((z * m : Int) : ℚ) := by push_cast; ring
    rw [this, Int.cast_le, Int.le_floor]
  have ce (x : ℚ) : ⌈(⌈x⌉ : ℚ) / m⌉ = ⌈x / m⌉ := by
    apply eq_of_forall_ge_iff
    intro z
    rw [Int.ceil_le, Int.ceil_le, div_le_iff₀ hq, div_le_iff₀ hq]
    have : ((z : ℚ) * m) = ((z * m : Int) : ℚ) := by push_cast; ring
    rw [this, Int.cast_le, Int.ceil_le]
  unfold roundTo
  have e1 (k : ℚ) : k / 10 ^ P / m * 10 ^ P = k / m := by field_simp
  rw [e1, show q / m * 10 ^ P = q * 10 ^ P / m by ring]
  cases mode with
  | nearest => exact absurd rfl hm
  | floor => simp only [Spec.round]; rw [fl]
  | ceil => simp only [Spec.round]; rw [ce]

theorem rdivInt_directed {cfg : Cfg} {a r : FP L P} {n : BitVec L.bits} {mode : RoundMode}
    (hm : mode ≠ .nearest) (h : 0 < n.toInt) :
    FP.rdivInt cfg a n mode = .ok r ↔ value r = roundTo P mode (value a / (n.toInt : ℚ)) :=
  (C12_rdivInt_partial cfg a n mode (by omega) (by omega) fun e => absurd e hm).ok_iff r

/-- C83: dividing by one positive integer and then by another, in a directed mode, is dividing once
by their product: no double rounding. -/
theorem C83_div_steps_int {cfg : Cfg} (a q r : FP L P) (n m k : BitVec L.bits)
    (mode : RoundMode) (hmode : mode ≠ .nearest) (hn : 0 < n.toInt) (hm : 0 < m.toInt)
    (hk : k.toInt = n.toInt * m.toInt) (h1 : FP.rdivInt cfg a n mode = .ok q)
    (h2 : FP.rdivInt cfg q m mode = .ok r) : FP.rdivInt cfg a k mode = .ok r := by
  rw [rdivInt_directed hmode hn] at h1
  rw [rdivInt_directed hmode hm, h1, roundTo_steps P hmode _ hm] at h2
  rw [rdivInt_directed hmode (by rw [hk]; positivity), h2, hk]
  push_cast
  rw [div_div]

example := C83_div_steps_int (cfg := debugCfg) (⟨100⟩ : FP .i64 1) ⟨14⟩ ⟨4⟩ 7 3 21 .floor (by decide)
  (by decide) (by decide) (by decide) (by decide +kernel) (by decide +kernel)

/-- C83: the same with a fixed-point number as first divisor. -/
theorem C83_div_steps {cfg : Cfg} (hv : Valid cfg L P) (a b b' q r : FP L P) (m : BitVec L.bits)
    (mode : RoundMode) (hmode : mode ≠ .nearest) (hm : 0 < m.toInt) (hb : FP.cmul b m = .ok b')
    (h1 : FP.rdiv cfg a b mode = .ok q) (h2 : FP.rdivInt cfg q m mode = .ok r) :
    FP.rdiv cfg a b' mode = .ok r := by
  have h0 := rdiv_ok_ne_zero hv h1
  have e1 := ((C10_rdiv_directed hv a b mode hmode h0).ok_iff q).1 h1
  have eb := ((C03_cmul_exact b m).ok_iff b').1 hb
  have hm' : (m.toInt : ℚ) ≠ 0 := by exact_mod_cast hm.ne'
  have hb' : value b' ≠ 0 := by rw [eb]; exact mul_ne_zero h0 hm'
  rw [rdivInt_directed hmode hm, e1, roundTo_steps P hmode _ hm] at h2
  rw [(C10_rdiv_directed hv a b' mode hmode hb').ok_iff r, h2, eb, div_div]

example := C83_div_steps (cfg := debugCfg) (by decide) (⟨100⟩ : FP .i64 1) ⟨70⟩ ⟨210⟩ ⟨14⟩ ⟨4⟩ 3 .floor
  (by decide) (by decide) (by decide +kernel) (by decide +kernel) (by decide +kernel)

/-- Outside C83: with `Nearest` rounding twice is not rounding once. -/
theorem C83_outside_domain :
    FP.rdivInt debugCfg (⟨9⟩ : FP .i64 2) (2 : BitVec 64) .nearest = .ok ⟨5⟩ ∧
    FP.rdivInt debugCfg (⟨5⟩ : FP .i64 2) (10 : BitVec 64) .nearest = .ok ⟨1⟩ ∧
    FP.rdivInt debugCfg (⟨9⟩ : FP .i64 2) (20 : BitVec 64) .nearest = .ok ⟨0⟩ := by decide +kernel

/-- C83: division and multiplication by a positive number are adjoint: `x` is at most the quotient
rounded down iff the product of `x` rounded up is at most the dividend. -/
theorem C83_adjoint_floor {cfg : Cfg} (hv : Valid cfg L P) (a c x q p : FP L P) (hc : 0 < value c)
    (h1 : FP.rdiv cfg a c .floor = .ok q) (h2 : FP.rmul cfg x c .ceil = .ok p) :
    value x ≤ value q ↔ value p ≤ value a := by
  obtain ⟨f1, f2⟩ := C10_rdiv_floor hv a c q hc.ne' h1
  obtain ⟨g1, g2⟩ := C07_rmul_ceil hv x c p h2
  constructor
  · intro h
    refine g2 a.inner.toInt ?_
    show value x * value c ≤ value a
    rw [← le_div_iff₀ hc]; exact h.trans f1
  · intro h
    refine f2 x.inner.toInt ?_
    show value x ≤ value a / value c
    rw [le_div_iff₀ hc]; exact g1.trans h

example := C83_adjoint_floor (cfg := debugCfg) (by decide) (⟨100⟩ : FP .i64 1) ⟨70⟩ ⟨13⟩ ⟨14⟩ ⟨91⟩
  (by decide +kernel) (by decide +kernel) (by decide +kernel)

/-- C83: and the other way round. -/
theorem C83_adjoint_ceil {cfg : Cfg} (hv : Valid cfg L P) (a c x q p : FP L P) (hc : 0 < value c)
    (h1 : FP.rdiv cfg a c .ceil = .ok q) (h2 : FP.rmul cfg x c .floor = .ok p) :
    value q ≤ value x ↔ value a ≤ value p := by
  obtain ⟨f1, f2⟩ := C10_rdiv_ceil hv a c q hc.ne' h1
  obtain ⟨g1, g2⟩ := C07_rmul_floor hv x c p h2
  constructor
  · intro h
    refine g2 a.inner.toInt ?_
    show value a ≤ value x * value c
    rw [← div_le_iff₀ hc]; exact f1.trans h
  · intro h
    refine f2 x.inner.toInt ?_
    show value a / value c ≤ value x
    rw [div_le_iff₀ hc]; exact h.trans g1

example := C83_adjoint_ceil (cfg := debugCfg) (by decide) (⟨100⟩ : FP .i64 1) ⟨70⟩ ⟨13⟩ ⟨15⟩ ⟨91⟩
  (by decide +kernel) (by decide +kernel) (by decide +kernel)

/-- C83: multiplication by an integer distributes over addition exactly, where it does not overflow:
`(a + b) * n = a * n + b * n`. -/
theorem C83_int_distrib (a b s x y z : FP L P) (n : BitVec L.bits) (hs : FP.cadd a b = .ok s)
    (h1 : FP.cmul s n = .ok x) (h2 : FP.cmul a n = .ok y) (h3 : FP.cmul b n = .ok z) :
    FP.cadd y z = .ok x := by
  have d (u w : FP L P) (h : FP.cmul u n = .ok w) := ((C03_cmul_exact u n).ok_iff w).1 h
  rw [(C01_cadd_exact y z).ok_iff x, d _ _ h1, d _ _ h2, d _ _ h3, C01_cadd_ok _ _ _ hs, add_mul]

example := C83_int_distrib (⟨15⟩ : FP .i64 1) ⟨25⟩ ⟨40⟩ ⟨120⟩ ⟨45⟩ ⟨75⟩ 3 (by decide +kernel)
  (by decide +kernel) (by decide +kernel) (by decide +kernel)

/-- C83: multiplying by an integer and dividing by it again gives the number back, in every mode
and build (but for the division that panics, see C12). -/
theorem C83_int_cancel {cfg : Cfg} (a x : FP L P) (n : BitVec L.bits) (mode : RoundMode)
    (hn : n.toInt ≠ 0) (hm : ¬ (value x = minValue L P ∧ n.toInt = -1))
    (h : FP.cmul a n = .ok x) : FP.rdivInt cfg x n mode = .ok a := by
  have e := ((C03_cmul_exact a n).ok_iff x).1 h
  have hq : (n.toInt : ℚ) ≠ 0 := by exact_mod_cast hn
  have ei : x.inner.toInt = a.inner.toInt * n.toInt := by
    have t := ten_pow_ne P
    unfold value at e
    rw [div_mul_eq_mul_div, div_left_inj' t] at e
    exact_mod_cast e
  have hx := C12_rdivInt_partial cfg x n mode hn
    (fun ⟨h1, h2⟩ => hm ⟨by unfold value minValue; rw [h1], h2⟩)
    (fun _ h0 => absurd (by rw [ei, Int.mul_tmod_left]) h0)
  rw [hx.ok_iff, e, mul_div_cancel_right₀ _ hq, roundTo_value]

example := C83_int_cancel (cfg := debugCfg) (⟨-125⟩ : FP .i64 2) ⟨-875⟩ 7 .ceil (by decide) (by decide +kernel)
  (by decide +kernel)

/-- Non-trivial instances: the bounds are attained. -/
example : FP.cadd (⟨15⟩ : FP .i64 1) ⟨15⟩ = .ok ⟨30⟩ ∧
    FP.rmul debugCfg (⟨30⟩ : FP .i64 1) ⟨5⟩ .floor = .ok ⟨15⟩ ∧
    FP.rmul debugCfg (⟨15⟩ : FP .i64 1) ⟨5⟩ .floor = .ok ⟨7⟩ ∧
    FP.rmul debugCfg (⟨30⟩ : FP .i64 1) ⟨5⟩ .ceil = .ok ⟨15⟩ ∧
    FP.rmul debugCfg (⟨15⟩ : FP .i64 1) ⟨5⟩ .ceil = .ok ⟨8⟩ ∧
    FP.rdiv debugCfg (⟨100⟩ : FP .i64 1) ⟨70⟩ .floor = .ok ⟨14⟩ ∧
    FP.rdiv debugCfg (⟨30⟩ : FP .i64 1) ⟨70⟩ .ceil = .ok ⟨5⟩ ∧
    FP.rdiv debugCfg (⟨15⟩ : FP .i64 1) ⟨70⟩ .ceil = .ok ⟨3⟩ ∧
    FP.rdivInt debugCfg (⟨14⟩ : FP .i64 1) (3 : BitVec 64) .floor = .ok ⟨4⟩ ∧
    FP.cmul (⟨70⟩ : FP .i64 1) (3 : BitVec 64) = .ok ⟨210⟩ ∧
    FP.rdiv debugCfg (⟨100⟩ : FP .i64 1) ⟨210⟩ .floor = .ok ⟨4⟩ := by decide +kernel

end Fixnum
