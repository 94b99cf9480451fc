import Verif.Props.Exact

/-! # Property C121: reciprocals

What `recip` (`/repo/src/lib.rs`, `recip`) may be used for: multiplying by it instead of dividing,
and taking it back. -/

namespace Fixnum

open Res Spec

variable {L : Layout} {P : Nat}

theorem recip_ne {cfg : Cfg} (hv : Valid cfg L P) {b y : FP L P} {mode : RoundMode}
    (h : FP.recip cfg b mode = .ok y) : value b ≠ 0 := by
  intro k
  obtain ⟨o, -, -, -, e⟩ := recip_eq hv b mode
  rw [e] at h
  have := (C10_rdiv_zero_iff hv o b mode).2 k
  rw [this] at h; cases h

/-- C121: in every mode and build, a number times its reciprocal misses one by less than as many
units of the last place as the number is large. -/
theorem C121_product {cfg : Cfg} (hv : Valid cfg L P) (x y : FP L P) (mode : RoundMode)
    (h : FP.recip cfg x mode = .ok y) : |value x * value y - 1| < |value x| / 10 ^ P := by
  have hx := recip_ne hv h
  have he := (C116_below_one_unit (ε := Unit) hv x x y 0 mode).2.2.2.2.1 h
  have : value x * value y - 1 = value x * (value y - 1 / value x) := by field_simp
  rw [this, abs_mul, div_eq_mul_one_div |value x|]
  exact mul_lt_mul_of_pos_left he (abs_pos.2 hx)

example := C121_product (cfg := debugCfg) (by decide) (⟨3000000000⟩ : FP .i64 9) ⟨333333333⟩ .floor
  (by decide +kernel)

/-- C121: in every mode and build, multiplying by the reciprocal differs from dividing by less than
`|a| + 2` units of the last place. -/
theorem C121_instead_of_division {cfg : Cfg} (hv : Valid cfg L P) (a b y p q : FP L P)
    (m₁ m₂ m₃ : RoundMode) (hy : FP.recip cfg b m₁ = .ok y) (hp : FP.rmul cfg a y m₂ = .ok p)
    (hq : FP.rdiv cfg a b m₃ = .ok q) : |value p - value q| < (|value a| + 2) / 10 ^ P := by
  have h1 := (C116_below_one_unit (ε := Unit) hv b b y 0 m₁).2.2.2.2.1 hy
  have h2 := (C116_below_one_unit (ε := Unit) hv a y p 0 m₂).1 hp
  have h3 := (C116_below_one_unit (ε := Unit) hv a b q 0 m₃).2.1 hq
  have h4 : |value a * (value y - 1 / value b)| ≤ |value a| * (1 / 10 ^ P) := by
    rw [abs_mul]
    exact mul_le_mul_of_nonneg_left h1.le (abs_nonneg _)
  have e : value p - value q = (value p - value a * value y) +
      value a * (value y - 1 / value b) - (value q - value a / value b) := by ring
  have e2 : (|value a| + 2) / 10 ^ P = |value a| * (1 / 10 ^ P) + 1 / 10 ^ P + 1 / 10 ^ P := by ring
  rw [e, e2]
  rw [abs_lt] at h2 h3 ⊢
  rw [abs_le] at h4
  constructor <;> linarith [h2.1, h2.2, h3.1, h3.2, h4.1, h4.2]

example := C121_instead_of_division (cfg := debugCfg) (by decide) (⟨7000000000⟩ : FP .i64 9)
  ⟨3000000000⟩ ⟨333333333⟩ ⟨2333333331⟩ ⟨2333333333⟩ .nearest .nearest .nearest
  (by decide +kernel) (by decide +kernel) (by decide +kernel)

/-- C121: for a dividend that is not negative, rounding down twice never exceeds the quotient
rounded down, and rounding up twice never falls below it rounded up. -/
theorem C121_directed {cfg : Cfg} (hv : Valid cfg L P) (a b y p q : FP L P) (ha : 0 ≤ value a)
    (mode : RoundMode) (hy : FP.recip cfg b mode = .ok y) (hp : FP.rmul cfg a y mode = .ok p)
    (hq : FP.rdiv cfg a b mode = .ok q) :
    (mode = .floor → value p ≤ value q) ∧ (mode = .ceil → value q ≤ value p) := by
  have hb := recip_ne hv hy
  have key : mode ≠ .nearest → value y = roundTo P mode (1 / value b) ∧
      value p = roundTo P mode (value a * value y) ∧
      value q = roundTo P mode (value a / value b) := by
    intro hm
    obtain ⟨o, -, ho, -, e⟩ := recip_eq hv b mode
    rw [e] at hy
    have h1 := ((C10_rdiv_directed hv o b _ hm hb).ok_iff _).1 hy
    rw [ho] at h1
    exact ⟨h1, rmul_checked_value hv (.inl hm) hp, ((C10_rdiv_directed hv a b _ hm hb).ok_iff _).1 hq⟩
  constructor
  · rintro rfl
    obtain ⟨h1, h2, h3⟩ := key (by simp)
    rw [h2, h3]
    refine roundTo_mono P _ ?_
    rw [div_eq_mul_one_div]
    exact mul_le_mul_of_nonneg_left (h1 ▸ (roundTo_floor_spec P _).1) ha
  · rintro rfl
    obtain ⟨h1, h2, h3⟩ := key (by simp)
    rw [h2, h3]
    refine roundTo_mono P _ ?_
    rw [div_eq_mul_one_div]
    exact mul_le_mul_of_nonneg_left (h1 ▸ (roundTo_ceil_spec P _).1) ha

example := C121_directed (cfg := debugCfg) (by decide) (⟨7000000000⟩ : FP .i64 9)
  ⟨3000000000⟩ ⟨333333334⟩ ⟨2333333338⟩ ⟨2333333334⟩
  (by rw [value_eq _ 7000000000 (by decide)]; norm_num) .ceil
  (by decide +kernel) (by decide +kernel) (by decide +kernel)

/-- C121: the reciprocal of the reciprocal misses the number by less than `1 + |x| / |y|` units of
the last place. -/
theorem C121_twice {cfg : Cfg} (hv : Valid cfg L P) (x y z : FP L P) (m₁ m₂ : RoundMode)
    (hy : FP.recip cfg x m₁ = .ok y) (hz : FP.recip cfg y m₂ = .ok z) :
    |value z - value x| < (1 + |value x| / |value y|) / 10 ^ P := by
  have h0 := recip_ne hv hz
  have h1 := C121_product hv x y m₁ hy
  have h2 := (C116_below_one_unit (ε := Unit) hv y y z 0 m₂).2.2.2.2.1 hz
  have e : value z - value x = (value z - 1 / value y) - (value x * value y - 1) / value y := by
    field_simp; ring
  have hpos := abs_pos.2 h0
  have h3 : |(value x * value y - 1) / value y| < |value x| / |value y| / 10 ^ P := by
    rw [abs_div, div_right_comm, div_lt_div_iff_of_pos_right hpos]
    exact h1
  have e2 : (1 + |value x| / |value y|) / 10 ^ P = 1 / 10 ^ P + |value x| / |value y| / 10 ^ P := by
    ring
  rw [e, e2]
  rw [abs_lt] at h2 h3 ⊢
  constructor <;> linarith [h2.1, h2.2, h3.1, h3.2]

example := C121_twice (cfg := debugCfg) (by decide) (⟨3000000000⟩ : FP .i64 9) ⟨333333333⟩
  ⟨3000000003⟩ .nearest .nearest (by decide +kernel) (by decide +kernel)

/-- C121: two numbers whose product is one are each other's reciprocals, in every mode and build;
and conversely, if the rounding up and the rounding down agree then their product is one. -/
theorem C121_pairs {cfg : Cfg} (hv : Valid cfg L P) (x y : FP L P) :
    value x * value y = 1 ↔
      FP.recip cfg x .floor = .ok y ∧ FP.recip cfg x .ceil = .ok y := by
  refine ⟨fun h => ⟨C120_recip hv x y _ (by rw [mul_comm, h]),
    C120_recip hv x y _ (by rw [mul_comm, h])⟩, fun ⟨h1, h2⟩ => ?_⟩
  have hx := recip_ne hv h1
  obtain ⟨o, -, ho, -, e1⟩ := recip_eq hv x .floor
  obtain ⟨o', -, ho', -, e2⟩ := recip_eq hv x .ceil
  rw [e1] at h1
  rw [e2] at h2
  have k1 := ((C10_rdiv_directed hv o x _ (by simp) hx).ok_iff _).1 h1
  have k2 := ((C10_rdiv_directed hv o' x _ (by simp) hx).ok_iff _).1 h2
  rw [ho] at k1
  rw [ho'] at k2
  have := (roundTo_floor_spec P (1 / value x)).1
  have := (roundTo_ceil_spec P (1 / value x)).1
  have : value y = 1 / value x := by linarith
  rw [this]; field_simp

example := (C121_pairs (cfg := debugCfg) (by decide) (⟨8000000000⟩ : FP .i64 9) ⟨125000000⟩).1
  (by rw [value_eq _ 8000000000 (by decide), value_eq _ 125000000 (by decide)]; norm_num)

end Fixnum
