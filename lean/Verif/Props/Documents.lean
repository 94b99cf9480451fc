import Verif.Props.FloatLiteral
import Verif.Props.SerdeModules
import Verif.Props.Laws
import Verif.Props.TextLaws

/-! # Property C107: a number in a document means the same as a string and as a number -/

namespace Fixnum

open Res Spec F64

variable {L : Layout} {P : Nat} {ε : Type}

namespace Spec

/-- The content writes the number `d`: as a decimal text, as an integer, or as the `f64` nearest to
it, which is what parsers of JSON and the like deliver for a number with a point or an exponent. -/
inductive WritesNumber (d : ℚ) : Content → Prop
  | text (b : Bool) (s : List Char) (l : Literal) (hs : IsText s l) (h : l.denote = d) :
      WritesNumber d (.str b s)
  | int (w : Nat) (v : Int) (h : (v : ℚ) = d) : WritesNumber d (.int w v)
  | uint (w : Nat) (v : Nat) (h : (v : ℚ) = d) : WritesNumber d (.uint w v)
  | float (f : BitVec 64) (h : f64Nearest f d) : WritesNumber d (.f64 f)

end Spec

theorem valid_le_38 {cfg : Cfg} (hv : Valid cfg L P) : P ≤ 38 := by
  by_contra h
  have h1 : (10 : Int) ^ 39 ≤ 10 ^ P := pow_le_pow_right₀ (by norm_num) (by omega)
  have h2 : (10 : Int) ^ 39 ≤ rawMax L := h1.trans hv.1
  cases L <;> exact absurd h2 (by decide)

/-- C107: however a number of the type is written, it is read as that number. -/
theorem C107_document_partial {cfg : Cfg} (hv : Valid cfg L P) (hP : 1 ≤ P) (q : Bool) (x : FP L P)
    (hr : |value x * 10 ^ P| ≤ 4 * 10 ^ 15) (hm : value x ≠ minValue L P) (c : Content)
    (hc : WritesNumber (value x) c) : FP.deserialize cfg q true c = .ok x := by
  cases hc with
  | text b s l hs h =>
    rw [(C50_string b q s x).1, C32_from_str_iff hv hP]
    exact ⟨l, hs, by rw [h, roundTo_value]⟩
  | int w v h =>
    rw [C50_accepts_iff hv]
    exact .inr (.inl ⟨v, rfl, h.symm⟩)
  | uint w v h =>
    rw [C50_accepts_iff hv]
    exact .inr (.inl ⟨v, rfl, by rw [← h]; simp⟩)
  | float f h =>
    rw [(C50_float q f x).1]
    exact C104_back cfg (valid_le_38 hv) x hr hm f h

example := C107_document_partial (cfg := debugCfg) (by decide) (by decide) true
  (⟨-12500000000⟩ : FP .i64 9) (by decide +kernel) (by decide +kernel) _
  (.float _ (C46_model_rounding (by decide +kernel)))

theorem nearest_big {d : ℚ} {n : Nat} (h : |d * 10 ^ n| ≤ 2 ^ 60) : |d| < 2 ^ 1023 := by
  have hp : (1 : ℚ) ≤ 10 ^ n := one_le_pow₀ (by norm_num)
  rw [abs_mul, abs_of_pos (lt_of_lt_of_le one_pos hp)] at h
  have h1 : |d| ≤ 2 ^ 60 := (le_mul_of_one_le_right (abs_nonneg d) hp).trans h
  exact lt_of_le_of_lt h1 (pow_lt_pow_right₀ (by norm_num) (by norm_num))

/-- C107: the `float` module too, for numbers and integers of up to 64 bits. -/
theorem C107_float_module_partial {cfg : Cfg} (hv : Valid cfg L P) (x : FP L P)
    (hr : |value x * 10 ^ P| ≤ 4 * 10 ^ 15) (hm : value x ≠ minValue L P) (c : Content)
    (hc : WritesNumber (value x) c) (hw : ∀ b s, c ≠ .str b s) (hi : ∀ w v, c = .int w v → w ≤ 64)
    (hu : ∀ w v, c = .uint w v → w ≤ 64) : FP.floatDeserialize cfg c = .ok x := by
  have hbig : |value x| < 2 ^ 1023 := nearest_big (hr.trans (by norm_num))
  have key : ∀ f, f64Nearest f (value x) → deF64 c = .ok f → FP.floatDeserialize cfg c = .ok x := by
    intro f hf e
    unfold FP.floatDeserialize FP.floatParse
    rw [e, ok_bind, C104_back cfg (valid_le_38 hv) x hr hm f hf, mapErr_ok]
  cases hc with
  | text b s l hs h => exact absurd rfl (hw b s)
  | int w v h =>
    refine key (F64.ofInt v) ?_ (by simp [deF64, hi w v rfl])
    unfold F64.ofInt
    rw [h]
    exact C46_model_rounding hbig
  | uint w v h =>
    refine key (F64.ofInt v) ?_ (by simp [deF64, hu w v rfl])
    unfold F64.ofInt
    rw [Int.cast_natCast, h]
    exact C46_model_rounding hbig
  | float f h => exact key f h rfl

example := C107_float_module_partial (cfg := debugCfg) (by decide) (⟨7000000000⟩ : FP .i64 9)
  (by decide +kernel) (by decide +kernel) (.uint 64 7) (.uint _ _ (by decide +kernel))
  (fun _ _ h => by cases h) (fun _ _ h => by cases h) (fun _ _ h => by cases h; decide)

theorem near_aux {P : Nat} (hP : P ≤ 38) {d w : ℚ} (h : |d * 10 ^ P| ≤ 2 ^ 51)
    (hw : |w - d| ≤ |d| / 2 ^ 53 ∨ |w - d| ≤ 2 ^ (-954 : Int)) :
    |w * 10 ^ P - d * 10 ^ P| ≤ 1 / 4 := by
  have hp : (0 : ℚ) < 10 ^ P := by positivity
  rw [← sub_mul, abs_mul, abs_of_pos hp]
  rcases hw with hw | hw
  · have h1 := mul_le_mul_of_nonneg_right hw hp.le
    rw [abs_mul, abs_of_pos hp] at h
    have e : |d| / 2 ^ 53 * 10 ^ P = |d| * 10 ^ P / 2 ^ 53 := by ring
    rw [e] at h1
    refine h1.trans ((div_le_div_of_nonneg_right h (by positivity)).trans ?_)
    norm_num
  · have h1 : (10 : ℚ) ^ P ≤ 10 ^ 38 := pow_le_pow_right₀ (by norm_num) hP
    have h2 : (2 : ℚ) ^ (-954 : Int) ≤ 2 ^ (-200 : Int) :=
      zpow_le_zpow_right₀ (by norm_num) (by norm_num)
    refine (mul_le_mul (hw.trans h2) h1 hp.le (by positivity)).trans ?_
    norm_num

theorem near_aux2 {x y d w : ℚ} (h1 : |x - d| ≤ 1 / 2) (h2 : |y - w| ≤ 6112 / 10000)
    (h3 : |w - d| ≤ 1 / 4) : |x - y| < 2 := by
  rw [abs_le] at *
  rw [abs_lt]
  constructor <;> linarith [h1.1, h1.2, h2.1, h2.2, h3.1, h3.2]

theorem near_aux3 {d w : ℚ} (h : |d| ≤ 2 ^ 51) (h3 : |w - d| ≤ 1 / 4) : |w| < 2 ^ 52 := by
  rw [abs_le] at *
  norm_num at h
  rw [abs_lt]
  norm_num
  constructor <;> linarith [h.1, h.2, h3.1, h3.2]

/-- C107: a number that the type cannot represent is read from a text and from a float as the same
number or as neighbours. -/
theorem C107_neighbours {cfg cfg' : Cfg} (hv : Valid cfg L P) (hP : 1 ≤ P) (d : ℚ)
    (hd : |d * 10 ^ P| ≤ 2 ^ 51) (q q' b : Bool) (s : List Char) (l : Literal) (hs : IsText s l)
    (hl : l.denote = d) (f : BitVec 64) (hf : f64Nearest f d) (x y : FP L P)
    (hx : FP.deserialize cfg q true (.str b s) = .ok x)
    (hy : FP.deserialize cfg' q' true (.f64 f) = .ok y) :
    |value x - value y| ≤ value (FP.epsilon : FP L P) := by
  have hp : (0 : ℚ) < 10 ^ P := by positivity
  have h38 := valid_le_38 hv
  rw [(C50_string b q s x).1, fromStr_of_text hv hP hs, hl] at hx
  rw [(C50_float q' f y).1] at hy
  have hbig := nearest_big (hd.trans (by norm_num) : |d * 10 ^ P| ≤ 2 ^ 60)
  have hfv := f64Nearest_value hbig hf
  have hnear := near_aux h38 hd (w := f64Value f) (by
    rw [hfv]
    by_cases h0 : d = 0 ∨ (2 : ℚ) ^ (-1022 : Int) ≤ |d|
    · exact .inl (ofRat_rel hbig h0)
    · push Not at h0
      right
      have := ofRat_half_ulp (v := d) (k := -900) (by norm_num) (by norm_num)
        (h0.2.le.trans (zpow_le_zpow_right₀ (by norm_num) (by norm_num)))
      exact this)
  have h1 : |value x * 10 ^ P - d * 10 ^ P| ≤ 1 / 2 := by
    have := roundTo_nearest_error P d
    rw [← hx, le_div_iff₀ hp] at this
    rwa [← sub_mul, abs_mul, abs_of_pos hp]
  have h2 : |value y * 10 ^ P - f64Value f * 10 ^ P| ≤ 6112 / 10000 := by
    have hs := near_aux3 hd hnear
    rw [abs_mul, abs_of_pos hp] at hs
    have := C44_error_bound_small cfg' (by omega) f y hy hs
    rw [le_div_iff₀ hp] at this
    rwa [← sub_mul, abs_mul, abs_of_pos hp]
  have h3 := near_aux2 h1 h2 hnear
  have e : ∀ z : FP L P, value z * 10 ^ P = z.inner.toInt := fun z => by
    unfold value
    rw [div_mul_cancel₀ _ hp.ne']
  rw [e, e] at h3
  have h4 : |x.inner.toInt - y.inner.toInt| < 2 := by exact_mod_cast h3
  have h5 : |x.inner.toInt - y.inner.toInt| ≤ 1 := by omega
  have h6 : |(x.inner.toInt : ℚ) - y.inner.toInt| ≤ 1 := by exact_mod_cast h5
  rw [C52_epsilon.1, le_div_iff₀ hp, ← abs_of_pos hp, ← abs_mul, sub_mul, e, e]
  exact h6

example := C107_neighbours (cfg := debugCfg) (cfg' := releaseCfg) (L := .i64) (P := 9) (by decide)
  (by decide) (-25 / 2) (by decide +kernel) true false true " -12.50".toList
  ⟨some true, [1, 2], some [5, 0]⟩ ⟨⟨by decide, by decide⟩, [' '], [], by decide, by decide, by simp⟩
  (by norm_num [Literal.denote, Literal.magnitude, Literal.fracDigits, natOf])
  (F64.ofRat (-25 / 2)) (C46_model_rounding (by decide +kernel)) ⟨-12500000000⟩ ⟨-12500000000⟩
  (by decide +kernel) (by decide +kernel)

/-- C107 is false for numbers with more digits than the type has: with one digit the text `0.445` is
read as 0.4, and the float nearest to 0.445 as 0.5.  Nor does it hold for all 16-digit numbers: with 12
digits the text `4096.029` is read exactly, and the nearest float is not. -/
theorem C107_document_false :
    IsText "0.445".toList ⟨none, [0], some [4, 4, 5]⟩ ∧
    (⟨none, [0], some [4, 4, 5]⟩ : Literal).denote = 445 / 1000 ∧
    f64Nearest 0x3FDC7AE147AE147B (445 / 1000) ∧
    (FP.deserialize debugCfg false true (.str true "0.445".toList) : Res DeErr (FP .i64 1)) =
      .ok ⟨4⟩ ∧
    (FP.deserialize debugCfg false true (.f64 0x3FDC7AE147AE147B) : Res DeErr (FP .i64 1)) =
      .ok ⟨5⟩ ∧
    f64Nearest 0x40B000076C8B4396 (4096029 / 1000) ∧
    (FP.deserialize debugCfg false true (.str true "4096.029".toList) : Res DeErr (FP .i64 12)) =
      .ok ⟨4096029000000000⟩ ∧
    (FP.deserialize debugCfg false true (.f64 0x40B000076C8B4396) : Res DeErr (FP .i64 12)) =
      .ok ⟨4096029000000001⟩ := by
  refine ⟨⟨⟨by decide, by decide⟩, [], [], by decide, by simp, by simp⟩, ?_, ?_, by decide +kernel,
    by decide +kernel, C104_literal_false.1, by decide +kernel, by decide +kernel⟩
  · rw [Literal.denote, if_neg (by decide)]
    norm_num [Literal.magnitude, Literal.fracDigits, natOf]
  · have h := C46_model_rounding (v := 445 / 1000) (by
      rw [abs_of_pos (by norm_num)]
      exact lt_trans (b := (2 : ℚ) ^ 20) (by norm_num) (pow_lt_pow_right₀ (by norm_num) (by norm_num)))
    rwa [show F64.ofRat (445 / 1000) = 0x3FDC7AE147AE147B by decide +kernel] at h

-- -12.5 with 9 digits: as a text, as a float, and read by the `float` module; 7 as an integer
example : Valid debugCfg .i64 9 ∧ value (⟨-12500000000⟩ : FP .i64 9) = -25 / 2 ∧
    WritesNumber (-25 / 2) (.f64 0xC029000000000000) ∧ WritesNumber (-25 / 2) (.str true " -12.50".toList) ∧
    WritesNumber 7 (.uint 64 7) ∧
    (FP.deserialize debugCfg false true (.f64 0xC029000000000000) : Res DeErr (FP .i64 9)) =
      .ok ⟨-12500000000⟩ ∧
    (FP.floatDeserialize debugCfg (.f64 0xC029000000000000) : Res DeErr (FP .i64 9)) =
      .ok ⟨-12500000000⟩ ∧
    (FP.deserialize debugCfg false true (.str true " -12.50".toList) : Res DeErr (FP .i64 9)) =
      .ok ⟨-12500000000⟩ := by
  refine ⟨by decide, ?_, .float _ ?_, .text _ _ ⟨some true, [1, 2], some [5, 0]⟩
    ⟨⟨by decide, by decide⟩, [' '], [], by decide, by decide, by simp⟩ ?_, .uint _ _ (by norm_num),
    by decide +kernel, by decide +kernel, by decide +kernel⟩
  · unfold value
    rw [show (⟨-12500000000⟩ : FP .i64 9).inner.toInt = -12500000000 by decide]
    norm_num
  · have h := C46_model_rounding (v := -25 / 2) (by
      rw [abs_of_neg (by norm_num)]
      exact lt_trans (b := (2 : ℚ) ^ 20) (by norm_num) (pow_lt_pow_right₀ (by norm_num) (by norm_num)))
    rwa [show F64.ofRat (-25 / 2) = 0xC029000000000000 by decide +kernel] at h
  · norm_num [Literal.denote, Literal.magnitude, Literal.fracDigits, natOf]

end Fixnum
