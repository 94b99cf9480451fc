import Verif.Props.ToFloatExact
import Verif.Props.Rational

/-! # Property C108: the conversion to `f64` as an explicit function -/

namespace Fixnum

open Res Spec F64

variable {L : Layout} {P : Nat} {ε : Type}

namespace Spec

/-- The integer part, towards zero. -/
def wholePart (q : ℚ) : Int := if q < 0 then ⌈q⌉ else ⌊q⌋

/-- `f` results from `q` by five roundings to nearest: of the integer part of `q`, of the rest in units
of `10^-P`, of `10^P`, of the quotient of the last two, and of the sum. -/
def FiveRoundings (P : Nat) (q : ℚ) (f : BitVec 64) : Prop :=
  ∃ i r c d, f64Nearest i (wholePart q) ∧ f64Nearest r ((q - wholePart q) * 10 ^ P) ∧
    f64Nearest c (10 ^ P) ∧ f64Nearest d (f64Value r / f64Value c) ∧
    f64Nearest f (f64Value i + f64Value d)

end Spec

theorem magnitude_aux {m e m' e' : Nat} (hm : m < 2 ^ 52) (h : e < e') :
    (if e = 0 then (m : ℚ) * 2 ^ (-1074 : ℤ) else (2 ^ 52 + m) * 2 ^ ((e : ℤ) - 1075)) <
      (if e' = 0 then (m' : ℚ) * 2 ^ (-1074 : ℤ) else (2 ^ 52 + m') * 2 ^ ((e' : ℤ) - 1075)) := by
  have hmq : (m : ℚ) < 2 ^ 52 := by exact_mod_cast hm
  rw [if_neg (show e' ≠ 0 by omega)]
  have h1 : (2 : ℚ) ^ 52 * 2 ^ ((e' : ℤ) - 1075) ≤ (2 ^ 52 + m') * 2 ^ ((e' : ℤ) - 1075) :=
    mul_le_mul_of_nonneg_right (by linarith [(Nat.cast_nonneg m' : (0 : ℚ) ≤ m')]) (by positivity)
  refine lt_of_lt_of_le ?_ h1
  split
  · have h2 : (2 : ℚ) ^ (-1074 : ℤ) ≤ 2 ^ ((e' : ℤ) - 1075) :=
      zpow_le_zpow_right₀ (by norm_num) (by omega)
    exact lt_of_lt_of_le (mul_lt_mul_of_pos_right hmq (by positivity))
      (mul_le_mul_of_nonneg_left h2 (by positivity))
  · have h2 : (2 : ℚ) * 2 ^ ((e : ℤ) - 1075) ≤ 2 ^ ((e' : ℤ) - 1075) := by
      rw [← zpow_one_add₀ (by norm_num)]
      exact zpow_le_zpow_right₀ (by norm_num) (by omega)
    have h3 : (2 ^ 52 + (m : ℚ)) < 2 ^ 52 * 2 := by linarith
    calc _ < (2 ^ 52 * 2) * (2 : ℚ) ^ ((e : ℤ) - 1075) := mul_lt_mul_of_pos_right h3 (by positivity)
      _ = 2 ^ 52 * (2 * (2 : ℚ) ^ ((e : ℤ) - 1075)) := by ring
      _ ≤ _ := mul_le_mul_of_nonneg_left h2 (by positivity)

/-- A finite `f64` is determined by its sign bit and its magnitude. -/
theorem f64Magnitude_inj {f g : BitVec 64} (hs : f64Negative f ↔ f64Negative g)
    (h : f64Magnitude f = f64Magnitude g) : f = g := by
  have mf : f64Mantissa f < 2 ^ 52 := Nat.mod_lt _ (by norm_num)
  have mg : f64Mantissa g < 2 ^ 52 := Nat.mod_lt _ (by norm_num)
  unfold f64Magnitude at h
  have he : f64Exponent f = f64Exponent g := by
    rcases lt_trichotomy (f64Exponent f) (f64Exponent g) with k | k | k
    · exact absurd h (magnitude_aux mf k).ne
    · exact k
    · exact absurd h (magnitude_aux mg k).ne'
  have hm : f64Mantissa f = f64Mantissa g := by
    rw [he] at h
    split at h
    · exact_mod_cast mul_right_cancel₀ (by positivity) h
    · have := mul_right_cancel₀ (by positivity) h
      exact_mod_cast add_left_cancel this
  apply BitVec.eq_of_toNat_eq
  unfold f64Mantissa at hm
  unfold f64Exponent at he
  unfold f64Negative at hs
  have := f.isLt
  have := g.isLt
  omega

theorem f64Nearest_unique {f g : BitVec 64} {q : ℚ} (hq : |q| < 2 ^ 1023) (hf : f64Nearest f q)
    (hg : f64Nearest g q) : f = g := by
  have hv : f64Value f = f64Value g := by rw [f64Nearest_value hq hf, f64Nearest_value hq hg]
  have hs : f64Negative f ↔ f64Negative g := hf.2.1.trans hg.2.1.symm
  refine f64Magnitude_inj hs ?_
  unfold f64Value at hv
  by_cases h : f64Negative f
  · rw [if_pos h, if_pos (hs.1 h)] at hv
    exact neg_injective hv
  · rw [if_neg h, if_neg (fun k => h (hs.2 k))] at hv
    exact hv

theorem wholePart_div (z : Int) {c : Int} (hc : 0 < c) :
    wholePart ((z : ℚ) / c) = z.tdiv c := by
  have h := round_trunc_div z hc.ne'
  unfold wholePart
  by_cases h0 : (z : ℚ) / c < 0
  · rw [if_neg (not_le.2 h0)] at h
    rw [if_pos h0]
    exact h
  · rw [if_pos (not_lt.1 h0)] at h
    rw [if_neg h0]
    exact h

theorem ofInt_small {z : Int} (h : |z| ≤ 2 ^ 127) : |f64Value (ofInt z)| ≤ 2 ^ 128 := by
  have h1 := ofInt_err h
  have h2 : |(z : ℚ)| ≤ 2 ^ 127 := by exact_mod_cast h
  have h3 := abs_sub_abs_le_abs_sub (f64Value (ofInt z)) (z : ℚ)
  have h4 : unitErr * |(z : ℚ)| ≤ 1 * |(z : ℚ)| :=
    mul_le_mul_of_nonneg_right (by linarith [unitErr_lt]) (abs_nonneg _)
  have h5 : (2 : ℚ) ^ 128 = 2 ^ 127 + 2 ^ 127 := by norm_num
  rw [h5]
  generalize (2 : ℚ) ^ 127 = M at *
  linarith

theorem ofInt_half {c : Int} (hc : 0 < c) (h : c ≤ 2 ^ 127) : 1 / 2 ≤ f64Value (ofInt c) := by
  have h1 := ofInt_err (z := c) (by rw [abs_of_pos hc]; exact h)
  have hcq : (1 : ℚ) ≤ c := by exact_mod_cast hc
  rw [abs_of_pos (show (0 : ℚ) < c by linarith)] at h1
  have h4 : unitErr * (c : ℚ) ≤ 1 / 2 * c :=
    mul_le_mul_of_nonneg_right (by linarith [unitErr_lt]) (by linarith)
  linarith [(abs_le.1 h1).1]

theorem nearest_double {f : BitVec 64} {q : ℚ} (hf : f64Nearest f q) : |f64Value f| ≤ 2 * |q| := by
  have h1 := hf.2.2.1 0 (by decide)
  rw [f64Value_zero, zero_sub, abs_neg] at h1
  have h2 := abs_sub_abs_le_abs_sub (f64Value f) q
  linarith

/-- C108: the conversion returns `f` exactly if `f` results from the five roundings. -/
theorem C108_formula {cfg : Cfg} (hv : Valid cfg L P) (a : FP L P) (f : BitVec 64) :
    (FP.toF64 cfg a : Res ε _) = .ok f ↔ FiveRoundings P (value a) f := by
  obtain ⟨c1, c2, c3, -⟩ := valid_bounds hv a
  rw [toF64_eq hv a]
  have e1 : wholePart (value a) = a.inner.toInt.tdiv (10 ^ P) := by
    rw [value_raw, wholePart_div _ c1]
  have e2 : (value a - wholePart (value a)) * 10 ^ P = ((a.inner.toInt.tmod (10 ^ P) : Int) : ℚ) := by
    have hp : (0 : ℚ) < ((10 ^ P : Int) : ℚ) := by exact_mod_cast c1
    rw [e1, value_raw, tdiv_tmod_q _ c1, add_sub_cancel_left,
      show (10 : ℚ) ^ P = ((10 ^ P : Int) : ℚ) by push_cast; rfl, div_mul_cancel₀ _ hp.ne']
  have e3 : (10 : ℚ) ^ P = ((10 ^ P : Int) : ℚ) := by push_cast; rfl
  unfold FiveRoundings
  rw [e2, e1, e3]
  have hi : |a.inner.toInt.tdiv (10 ^ P)| ≤ 2 ^ 127 := le_trans (abs_tdiv_le_self _ c1) c3
  have hr : |a.inner.toInt.tmod (10 ^ P)| ≤ 2 ^ 127 := by
    have := abs_tmod_lt a.inner.toInt c1
    omega
  have hc : |(10 ^ P : Int)| ≤ 2 ^ 127 := by rw [abs_of_pos c1]; exact c2
  have hC := ofInt_half c1 c2
  unfold f64Core
  generalize a.inner.toInt.tdiv (10 ^ P) = zi at *
  generalize a.inner.toInt.tmod (10 ^ P) = zr at *
  generalize (10 ^ P : Int) = zc at *
  have big : ∀ z : Int, |z| ≤ 2 ^ 127 → |(z : ℚ)| < 2 ^ 1023 := by
    intro z hz
    have h2 : |(z : ℚ)| ≤ 2 ^ 127 := by exact_mod_cast hz
    exact lt_of_le_of_lt h2 (pow_lt_pow_right₀ (by norm_num) (by norm_num))
  have ni : f64Nearest (ofInt zi) zi := ofRat_nearest (big _ hi)
  have nr : f64Nearest (ofInt zr) zr := ofRat_nearest (big _ hr)
  have nc : f64Nearest (ofInt zc) zc := ofRat_nearest (big _ hc)
  have bq : |f64Value (ofInt zr) / f64Value (ofInt zc)| ≤ 2 ^ 129 := by
    rw [abs_div, abs_of_pos (show 0 < f64Value (ofInt zc) by linarith),
      div_le_iff₀ (by linarith)]
    refine (ofInt_small hr).trans ?_
    rw [show (2 : ℚ) ^ 128 = 2 ^ 129 * (1 / 2) by norm_num]
    exact mul_le_mul_of_nonneg_left hC (by positivity)
  have nd : f64Nearest (F64.div (ofInt zr) (ofInt zc)) (f64Value (ofInt zr) / f64Value (ofInt zc)) := by
    unfold F64.div
    rw [toRat_eq, toRat_eq]
    exact ofRat_nearest (lt_of_le_of_lt bq (pow_lt_pow_right₀ (by norm_num) (by norm_num)))
  have bs : |f64Value (ofInt zi) + f64Value (F64.div (ofInt zr) (ofInt zc))| ≤ 2 ^ 131 := by
    have h1 := nearest_double nd
    have h2 := ofInt_small hi
    have h3 := abs_add_le (f64Value (ofInt zi)) (f64Value (F64.div (ofInt zr) (ofInt zc)))
    have h5 : (2 : ℚ) ^ 131 = 8 * 2 ^ 128 := by norm_num
    have h6 : (2 : ℚ) ^ 129 = 2 * 2 ^ 128 := by norm_num
    rw [h6] at bq
    rw [h5]
    have h7 : (0 : ℚ) < 2 ^ 128 := by positivity
    generalize (2 : ℚ) ^ 128 = M at *
    linarith
  have bs' : |f64Value (ofInt zi) + f64Value (F64.div (ofInt zr) (ofInt zc))| < 2 ^ 1023 :=
    lt_of_le_of_lt bs (pow_lt_pow_right₀ (by norm_num) (by norm_num))
  have ns : f64Nearest (F64.add (ofInt zi) (F64.div (ofInt zr) (ofInt zc)))
      (f64Value (ofInt zi) + f64Value (F64.div (ofInt zr) (ofInt zc))) := by
    unfold F64.add
    rw [toRat_eq, toRat_eq]
    exact ofRat_nearest bs'
  constructor
  · intro h
    injection h with h
    subst h
    exact ⟨_, _, _, _, ni, nr, nc, nd, ns⟩
  · rintro ⟨i, r, c, d, h1, h2, h3, h4, h5⟩
    obtain rfl := f64Nearest_unique (big _ hi) h1 ni
    obtain rfl := f64Nearest_unique (big _ hr) h2 nr
    obtain rfl := f64Nearest_unique (big _ hc) h3 nc
    obtain rfl := f64Nearest_unique
      (lt_of_le_of_lt bq (pow_lt_pow_right₀ (by norm_num) (by norm_num))) h4 nd
    rw [f64Nearest_unique bs' h5 ns]

example := C108_formula (ε := Unit) (cfg := debugCfg) (by decide) (⟨13420000000⟩ : FP .i64 9)
  0x402AD70A3D70A3D7

/-- C108: the conversion does not depend on the build. -/
theorem C108_build {cfg cfg' : Cfg} (hv : Valid cfg L P) (hv' : Valid cfg' L P) (a : FP L P) :
    (FP.toF64 cfg a : Res ε _) = FP.toF64 cfg' a := by
  rw [toF64_eq hv, toF64_eq hv']

-- 1.14 with two digits: 1, 14, 100, 0.14 and their sum, which is not the `f64` nearest to 1.14
example : Valid debugCfg .i64 2 ∧ value (⟨114⟩ : FP .i64 2) = 57 / 50 ∧ wholePart (57 / 50) = 1 ∧
    (57 / 50 - wholePart (57 / 50)) * 10 ^ 2 = (14 : ℚ) ∧
    FiveRoundings 2 (57 / 50) 0x3FF23D70A3D70A3E := by
  have hv : Valid debugCfg .i64 2 := by decide
  have e : value (⟨114⟩ : FP .i64 2) = 57 / 50 := by
    unfold value
    rw [show (⟨114⟩ : FP .i64 2).inner.toInt = 114 by decide]
    norm_num
  have w : wholePart (57 / 50) = 1 := by
    unfold wholePart
    rw [if_neg (by norm_num)]
    exact Int.floor_eq_iff.2 ⟨by norm_num, by norm_num⟩
  refine ⟨hv, e, w, by rw [w]; norm_num, ?_⟩
  rw [← e, ← C108_formula (ε := Unit) hv]
  exact C105_nearest_false.2.1

end Fixnum
