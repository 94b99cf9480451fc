import Verif.ImplOp
import Verif.Props.Checked
import Verif.Props.Rounding
import Verif.Props.Division

/-! # Property C51: operations of wrapper types defined by `impl_op!` -/

namespace Fixnum

open Res Spec

namespace Spec

/-- The number in a wrapper. -/
def num : {t : OpTy} → Wrapper t → ℚ
  | .fp _ _, x => value x.val
  | .int _, x => (x.val.toInt : ℚ)

/-- The least and greatest number of a type. -/
def least : OpTy → ℚ
  | .fp L P => minValue L P
  | .int w => -2 ^ (w - 1)
def greatest : OpTy → ℚ
  | .fp L P => maxValue L P
  | .int w => 2 ^ (w - 1) - 1

/-- Rounding to the digits of a type. -/
def roundIn : OpTy → RoundMode → ℚ → ℚ
  | .fp _ P, mode, q => roundTo P mode q
  | .int _, mode, q => round mode q

/-- `q` is a number of the type. -/
def Has (t : OpTy) (q : ℚ) : Prop := ∃ c : Wrapper t, num c = q

/-- A call returns a wrapper with exactly the number `q`, or overflow if the type has none. -/
def NumOr {t : OpTy} (r : Res ArithErr (Wrapper t)) (q : ℚ) : Prop :=
  (Has t q → ∃ c, r = .ok c ∧ num c = q) ∧ (¬ Has t q → r = .err .overflow)

end Spec

variable {S T I A B : OpTy} {ε : Type}

theorem intWidths_pos {w : Nat} (h : w ∈ intWidths) : 8 ≤ w := by
  unfold intWidths at h
  simp only [List.mem_cons, List.not_mem_nil, or_false] at h
  omega

/-- Promotion does not change the number. -/
theorem promote_num (o : Operand S I A) (x : Wrapper S) : num (⟨o.promote x.val⟩ : Wrapper A) = num x := by
  cases o with
  | self L P => rfl
  | int w v hw hv h =>
    unfold Operand.promote num SInt.cast
    dsimp only
    have := intWidths_pos hw
    have hf := toInt_fits x.val
    rw [toInt_ofInt_of_fits (by omega)]
    unfold Fits iMin iMax at *
    have : (2 : Int) ^ (w - 1) ≤ 2 ^ (v - 1) := pow_le_pow_right₀ (by norm_num) (by omega)
    omega
  | intFp w L P hw h =>
    unfold Operand.promote num SInt.cast
    dsimp only
    have := intWidths_pos hw
    have hf := toInt_fits x.val
    rw [toInt_ofInt_of_fits (by omega)]
    unfold Fits iMin iMax at *
    have : (2 : Int) ^ (w - 1) ≤ 2 ^ (L.bits - 1) := pow_le_pow_right₀ (by norm_num) (by omega)
    omega

theorem numOr_fp {L : Layout} {P : Nat} {r : Res ArithErr (FP L P)} {q : ℚ}
    (h : ExactOr .overflow r q) : NumOr (t := .fp L P) (mapOk r (Wrapper.mk (t := .fp L P))) q := by
  have e : Has (.fp L P) q ↔ Representable L P q :=
    ⟨fun ⟨c, hc⟩ => ⟨c.val, hc⟩, fun ⟨c, hc⟩ => ⟨⟨c⟩, hc⟩⟩
  refine ⟨fun hq => ?_, fun hq => ?_⟩
  · obtain ⟨c, h1, h2⟩ := h.1 (e.1 hq)
    exact ⟨⟨c⟩, by rw [h1, mapOk_ok], h2⟩
  · rw [h.2 (fun hc => hq (e.2 hc)), mapOk_err]

theorem numOr_int {w : Nat} (hw : 8 ≤ w) {r : Res ArithErr (BitVec w)} {z : Int} {q : ℚ}
    (h : IntExactOr .overflow r z) (hz : (z : ℚ) = q) :
    NumOr (t := .int w) (mapOk r (Wrapper.mk (t := .int w))) q := by
  have e : Has (.int w) q ↔ (-(2 ^ (w - 1)) ≤ z ∧ z ≤ 2 ^ (w - 1) - 1) := by
    constructor
    · rintro ⟨c, hc⟩
      have : (c.val.toInt : ℚ) = (z : ℚ) := by rw [hz]; exact hc
      have : c.val.toInt = z := by exact_mod_cast this
      rw [← this]
      exact toInt_fits c.val
    · intro hf
      refine ⟨⟨BitVec.ofInt w z⟩, ?_⟩
      have : (BitVec.ofInt w z).toInt = z := toInt_ofInt_of_fits (by omega) hf
      unfold num
      dsimp only
      rw [this, hz]
  refine ⟨fun hq => ?_, fun hq => ?_⟩
  · obtain ⟨c, h1, h2⟩ := h.1 (e.1 hq)
    refine ⟨⟨c⟩, by rw [h1, mapOk_ok], ?_⟩
    unfold num
    dsimp only
    rw [h2, hz]
  · rw [h.2 (fun hc => hq (e.2 hc)), mapOk_err]

theorem checked_intExactOr {w : Nat} (hw : 8 ≤ w) (z : Int) :
    IntExactOr ArithErr.overflow (ofOption ArithErr.overflow (SInt.checked w z)) z := by
  unfold SInt.checked
  refine ⟨fun h => ?_, fun h => ?_⟩
  · rw [if_pos (show Fits w z from h)]
    exact ⟨_, rfl, toInt_ofInt_of_fits (by omega) h⟩
  · rw [if_neg (show ¬ Fits w z from h)]
    rfl

/-- C51: addition is exact, or an overflow of the result type. -/
theorem C51_cadd (l : Operand S I A) (r : Operand T I B) (im : AddImpl A B I) (x : Wrapper S)
    (y : Wrapper T) : NumOr (ImplOp.cadd l r im x y) (num x + num y) := by
  rw [← promote_num l x, ← promote_num r y]
  unfold ImplOp.cadd
  generalize l.promote x.val = a
  generalize r.promote y.val = b
  cases im with
  | fp L P => exact numOr_fp (C01_cadd_exact a b)
  | int w hw =>
    exact numOr_int (intWidths_pos hw) (checked_intExactOr (intWidths_pos hw) _) (by
      unfold num; push_cast; rfl)

example := C51_cadd (.self .i64 9) (.self .i64 9) (.fp .i64 9) ⟨⟨1500000000⟩⟩ ⟨⟨-7⟩⟩

/-- C51: subtraction is exact, or an overflow of the result type. -/
theorem C51_csub (l : Operand S I A) (r : Operand T I B) (im : AddImpl A B I) (x : Wrapper S)
    (y : Wrapper T) : NumOr (ImplOp.csub l r im x y) (num x - num y) := by
  rw [← promote_num l x, ← promote_num r y]
  unfold ImplOp.csub
  generalize l.promote x.val = a
  generalize r.promote y.val = b
  cases im with
  | fp L P => exact numOr_fp (C02_csub_exact a b)
  | int w hw =>
    exact numOr_int (intWidths_pos hw) (checked_intExactOr (intWidths_pos hw) _) (by
      unfold num; push_cast; rfl)

example := C51_csub (.self .i64 9) (.self .i64 9) (.fp .i64 9) ⟨FP.min⟩ ⟨⟨1500000000⟩⟩

/-- C51: multiplication is exact, or an overflow of the result type. -/
theorem C51_cmul (l : Operand S I A) (r : Operand T I B) (im : CmulImpl A B I) (x : Wrapper S)
    (y : Wrapper T) : NumOr (ImplOp.cmul l r im x y) (num x * num y) := by
  rw [← promote_num l x, ← promote_num r y]
  unfold ImplOp.cmul
  generalize l.promote x.val = a
  generalize r.promote y.val = b
  cases im with
  | fpInt L P => exact numOr_fp (C03_cmul_exact a b)
  | intFp L P => exact numOr_fp (C03_intCmul_exact b a)
  | int w hw =>
    exact numOr_int (intWidths_pos hw) (checked_intExactOr (intWidths_pos hw) _) (by
      unfold num; push_cast; rfl)

example := C51_cmul (S := .int 16) (T := .fp .i16 1) (I := .fp .i16 1)
  (.intFp 16 .i16 1 (by decide) (by decide)) (.self .i16 1) (.intFp .i16 1) ⟨(-700 : BitVec 16)⟩ ⟨⟨2500⟩⟩

theorem saturate_num {w : Nat} (hw : 8 ≤ w) (z : Int) :
    num (⟨SInt.saturate w z⟩ : Wrapper (.int w)) =
      max (least (.int w)) (min (greatest (.int w)) z) := by
  have hp : (0 : Int) < 2 ^ (w - 1) := by positivity
  have key : (SInt.saturate w z).toInt = max (-2 ^ (w - 1)) (min (2 ^ (w - 1) - 1) z) := by
    unfold SInt.saturate iMin iMax
    rw [toInt_ofInt_of_fits (by omega)]
    · split_ifs <;> omega
    · unfold Fits iMin iMax
      split_ifs <;> omega
  unfold num least greatest
  dsimp only
  rw [key]
  push_cast
  rfl

/-- C51: the saturating forms give the exact result clamped to the result type. -/
theorem C51_saturating (l : Operand S I A) (r : Operand T I B) (im : AddImpl A B I) (x : Wrapper S)
    (y : Wrapper T) :
    num (ImplOp.saturatingAdd l r im x y) =
      max (least I) (min (greatest I) (num x + num y)) ∧
    num (ImplOp.saturatingSub l r im x y) =
      max (least I) (min (greatest I) (num x - num y)) := by
  rw [← promote_num l x, ← promote_num r y]
  unfold ImplOp.saturatingAdd ImplOp.saturatingSub
  generalize l.promote x.val = a
  generalize r.promote y.val = b
  cases im with
  | fp L P => exact ⟨C05_saturating_add a b, C05_saturating_sub a b⟩
  | int w hw =>
    have h1 := saturate_num (intWidths_pos hw) (BitVec.toInt a + BitVec.toInt b)
    have h2 := saturate_num (intWidths_pos hw) (BitVec.toInt a - BitVec.toInt b)
    push_cast at h1 h2
    exact ⟨h1, h2⟩

example := C51_saturating (.self .i16 1) (.self .i16 1) (.fp .i16 1) ⟨⟨-30000⟩⟩ ⟨⟨20000⟩⟩

theorem round_sign (mode : RoundMode) (q : ℚ) :
    (0 ≤ q → 0 ≤ Spec.round mode q) ∧ (q ≤ 0 → Spec.round mode q ≤ 0) := by
  cases mode with
  | floor => exact ⟨fun h => Int.floor_nonneg.2 h, fun h => by
      have := Int.floor_mono h
      simpa [Spec.round] using this⟩
  | ceil => exact ⟨fun h => by
      have := Int.ceil_mono h
      simpa [Spec.round] using this, fun h => by
      have := Int.ceil_mono h
      simpa [Spec.round] using this⟩
  | nearest =>
    unfold Spec.round nearest
    dsimp only
    refine ⟨fun h => ?_, fun h => ?_⟩
    · rw [if_pos h]
      exact Int.floor_nonneg.2 (by linarith)
    · by_cases h0 : 0 ≤ q
      · have : q = 0 := le_antisymm h h0
        rw [if_pos h0, this]
        norm_num
      · rw [if_neg h0]
        have h1 : (⌈q - 1 / 2⌉ : Int) ≤ ⌈(0 : ℚ)⌉ := Int.ceil_mono (by linarith)
        simpa using h1

theorem roundIn_sign (t : OpTy) (mode : RoundMode) (q : ℚ) :
    (0 ≤ q → 0 ≤ roundIn t mode q) ∧ (q ≤ 0 → roundIn t mode q ≤ 0) := by
  cases t with
  | fp L P =>
    unfold roundIn roundTo
    dsimp only
    have hp := ten_pow_pos P
    have h := round_sign mode (q * 10 ^ P)
    refine ⟨fun hq => div_nonneg ?_ hp.le, fun hq => div_nonpos_of_nonpos_of_nonneg ?_ hp.le⟩
    · exact_mod_cast h.1 (by positivity)
    · exact_mod_cast h.2 (mul_nonpos_of_nonpos_of_nonneg hq hp.le)
  | int w =>
    unfold roundIn
    dsimp only
    have h := round_sign mode q
    exact ⟨fun hq => by exact_mod_cast h.1 hq, fun hq => by exact_mod_cast h.2 hq⟩

/-- Every number of a type lies between its bounds, and every multiple of its unit between the
bounds is a number of the type. -/
theorem has_range (hI : ∀ w, I = .int w → 8 ≤ w) {q : ℚ} (mode : RoundMode) :
    Has I (roundIn I mode q) ↔ least I ≤ roundIn I mode q ∧ roundIn I mode q ≤ greatest I := by
  cases I with
  | fp L P =>
    unfold roundIn roundTo least greatest minValue maxValue
    dsimp only
    have hp := ten_pow_pos P
    generalize Spec.round mode (q * 10 ^ P) = z
    rw [div_le_div_iff_of_pos_right hp, div_le_div_iff_of_pos_right hp]
    have e : Has (.fp L P) ((z : ℚ) / 10 ^ P) ↔ Representable L P ((z : ℚ) / 10 ^ P) :=
      ⟨fun ⟨c, hc⟩ => ⟨c.val, hc⟩, fun ⟨c, hc⟩ => ⟨⟨c⟩, hc⟩⟩
    rw [e, representable_iff]
    exact_mod_cast Iff.rfl
  | int w =>
    have hw := hI w rfl
    unfold roundIn least greatest
    dsimp only
    generalize Spec.round mode q = z
    constructor
    · rintro ⟨c, hc⟩
      have : c.val.toInt = z := by unfold num at hc; dsimp only at hc; exact_mod_cast hc
      have hf := toInt_fits c.val
      rw [this] at hf
      unfold Fits iMin iMax at hf
      exact_mod_cast hf
    · intro h
      have hf : Fits w z := by
        unfold Fits iMin iMax
        exact_mod_cast h
      refine ⟨⟨BitVec.ofInt w z⟩, ?_⟩
      have : (BitVec.ofInt w z).toInt = z := toInt_ofInt_of_fits (by omega) hf
      unfold num
      dsimp only
      rw [this]

theorem least_le (t : OpTy) : least t ≤ 0 ∧ 0 ≤ greatest t := by
  have h2 : ∀ n : Nat, (1 : ℚ) ≤ 2 ^ n := fun n => one_le_pow₀ (by norm_num)
  cases t with
  | fp L P =>
    unfold least greatest minValue maxValue rawMin rawMax
    have hp := ten_pow_pos P
    have := h2 (L.bits - 1)
    push_cast
    exact ⟨div_nonpos_of_nonpos_of_nonneg (by linarith) hp.le, div_nonneg (by linarith) hp.le⟩
  | int w =>
    unfold least greatest
    have := h2 (w - 1)
    exact ⟨by linarith, by linarith⟩

/-- What the provided saturating methods do: the result if there is one, else the bound on the side
given by the signs. -/
theorem saturating_default {r : Res ArithErr (Wrapper I)} {p q : ℚ} (hr : NumOr r q)
    (hrange : Has I q ↔ least I ≤ q ∧ q ≤ greatest I) (hs : (0 ≤ p → 0 ≤ q) ∧ (p ≤ 0 → q ≤ 0))
    {x y : ℚ} (hp : p = x * y) {bx bY : Bool} (hx : bx = true ↔ x < 0) (hy : bY = true ↔ y < 0)
    {mn mx : Wrapper I} (hmn : num mn = least I) (hmx : num mx = greatest I) :
    ∃ c, (unwrapOr r (if bx == bY then mx else mn) : Res ε (Wrapper I)) = .ok c ∧
      num c = max (least I) (min (greatest I) q) := by
  obtain ⟨hl, hg⟩ := least_le I
  by_cases h : Has I q
  · obtain ⟨c, h1, h2⟩ := hr.1 h
    obtain ⟨h3, h4⟩ := hrange.1 h
    exact ⟨c, by rw [h1, unwrapOr_ok], by rw [h2, min_eq_right h4, max_eq_right h3]⟩
  · rw [hr.2 h, unwrapOr_err]
    refine ⟨_, rfl, ?_⟩
    have hout : q < least I ∨ greatest I < q := by
      by_contra hc
      push Not at hc
      exact h (hrange.2 hc)
    by_cases hb : bx = bY
    · rw [if_pos (by rw [hb]; simp), hmx]
      have hp0 : 0 ≤ p := by
        rw [hp]
        cases hbx : bx with
        | true =>
          rw [hbx] at hx hb
          rw [← hb] at hy
          exact le_of_lt (mul_pos_of_neg_of_neg (hx.1 rfl) (hy.1 rfl))
        | false =>
          rw [hbx] at hx hb
          rw [← hb] at hy
          have h1 : 0 ≤ x := not_lt.1 fun hc => by simpa using hx.2 hc
          have h2 : 0 ≤ y := not_lt.1 fun hc => by simpa using hy.2 hc
          exact mul_nonneg h1 h2
      have := hs.1 hp0
      have hgq : greatest I < q := by rcases hout with h | h <;> linarith
      rw [min_eq_left hgq.le, max_eq_right (by linarith)]
    · rw [if_neg (by simpa using hb), hmn]
      have hp0 : p ≤ 0 := by
        rw [hp]
        cases hbx : bx with
        | true =>
          have hbY : bY = false := by cases bY <;> simp_all
          rw [hbx] at hx
          rw [hbY] at hy
          have h2 : 0 ≤ y := not_lt.1 fun hc => by simpa using hy.2 hc
          exact mul_nonpos_of_nonpos_of_nonneg (hx.1 rfl).le h2
        | false =>
          have hbY : bY = true := by cases bY <;> simp_all
          rw [hbx] at hx
          rw [hbY] at hy
          have h1 : 0 ≤ x := not_lt.1 fun hc => by simpa using hx.2 hc
          exact mul_nonpos_of_nonneg_of_nonpos h1 (hy.1 rfl).le
      have := hs.2 hp0
      have hgq : q < least I := by rcases hout with h | h <;> linarith
      rw [min_eq_right (by linarith), max_eq_left hgq.le]

/-- C51: the provided `saturating_mul` of a wrapper clamps the exact product, if the wrappers' order,
zero and bounds are those of the numbers in them. -/
theorem C51_saturating_mul (negS : Wrapper S → Bool) (negT : Wrapper T → Bool) (mn mx : Wrapper I)
    (l : Operand S I A) (r : Operand T I B) (im : CmulImpl A B I) (x : Wrapper S) (y : Wrapper T)
    (hS : negS x = true ↔ num x < 0) (hT : negT y = true ↔ num y < 0)
    (hmn : num mn = least I) (hmx : num mx = greatest I) :
    ∃ c, (ImplOp.saturatingMul negS negT mn mx l r im x y : Res ε _) = .ok c ∧
      num c = max (least I) (min (greatest I) (num x * num y)) := by
  have hint : roundIn I .floor (num x * num y) = num x * num y ∧ ∀ w, I = .int w → 8 ≤ w := by
    rw [← promote_num l x, ← promote_num r y]
    generalize l.promote x.val = a
    generalize r.promote y.val = b
    cases im with
    | fpInt L P =>
      refine ⟨?_, by simp⟩
      unfold roundIn roundTo num value Spec.round
      dsimp only
      have hp := ten_pow_pos P
      have e : (a.inner.toInt : ℚ) / 10 ^ P * (BitVec.toInt b : ℚ) * 10 ^ P =
          ((a.inner.toInt * BitVec.toInt b : Int) : ℚ) := by
        push_cast; field_simp
      rw [e, Int.floor_intCast]
      push_cast; ring
    | intFp L P =>
      refine ⟨?_, by simp⟩
      unfold roundIn roundTo num value Spec.round
      dsimp only
      have hp := ten_pow_pos P
      have e : (BitVec.toInt a : ℚ) * ((b.inner.toInt : ℚ) / 10 ^ P) * 10 ^ P =
          ((BitVec.toInt a * b.inner.toInt : Int) : ℚ) := by
        push_cast; field_simp
      rw [e, Int.floor_intCast]
      push_cast; ring
    | int w hw =>
      refine ⟨?_, fun w' h => by cases h; exact intWidths_pos hw⟩
      unfold roundIn num Spec.round
      dsimp only
      rw [← Int.cast_mul, Int.floor_intCast]
  have hrange := has_range (I := I) hint.2 (q := num x * num y) .floor
  rw [hint.1] at hrange
  exact saturating_default (C51_cmul l r im x y) hrange ⟨id, id⟩ rfl hS hT hmn hmx

example := C51_saturating_mul (ε := Unit) (S := .int 16) (T := .fp .i16 1) (I := .fp .i16 1)
  (fun x => decide ((show BitVec 16 from x.val).toInt < 0))
  (fun y => decide ((show FP .i16 1 from y.val).inner.toInt < 0)) ⟨FP.min⟩ ⟨FP.max⟩ (.intFp 16 .i16 1 (by decide) (by decide))
  (.self .i16 1) (.intFp .i16 1) ⟨(-700 : BitVec 16)⟩ ⟨⟨2500⟩⟩ (by decide +kernel) (by decide +kernel)
  (by decide +kernel) (by decide +kernel)

/-- The precondition on the types: the coefficient of a fixed-point result fits (C53). -/
def OpValid (cfg : Cfg) : OpTy → Prop
  | .fp L P => Valid cfg L P
  | .int _ => True

/-- C51: rounding multiplication.  Missing: `Nearest` for `i128` with 38 digits, as in C07. -/
theorem C51_rmul_partial {cfg : Cfg} (hv : OpValid cfg I) (l : Operand S I A) (r : Operand T I B)
    (im : RmulImpl A B I) (x : Wrapper S) (y : Wrapper T) (mode : RoundMode)
    (hne : mode = .nearest → I ≠ .fp .i128 38) :
    NumOr (ImplOp.rmul cfg l r im x y mode) (roundIn I mode (num x * num y)) := by
  rw [← promote_num l x, ← promote_num r y]
  unfold ImplOp.rmul
  generalize l.promote x.val = a
  generalize r.promote y.val = b
  cases im with
  | fp L P =>
    exact numOr_fp (C07_rmul_partial hv a b mode fun h hc => hne h (by rw [hc.1, hc.2]))

example := C51_rmul_partial (cfg := debugCfg) (I := .fp .i64 9) (by unfold OpValid; decide) (.self .i64 9)
  (.self .i64 9) (.fp .i64 9) ⟨⟨1500000001⟩⟩ ⟨⟨-3⟩⟩ .nearest (fun _ h => by cases h)

/-- C51: the provided `saturating_rmul` of a wrapper clamps the rounded product.  Missing as in
`C51_rmul_partial`. -/
theorem C51_saturating_rmul_partial {cfg : Cfg} (hv : OpValid cfg I) (negS : Wrapper S → Bool)
    (negT : Wrapper T → Bool) (mn mx : Wrapper I) (l : Operand S I A) (r : Operand T I B)
    (im : RmulImpl A B I) (x : Wrapper S) (y : Wrapper T) (mode : RoundMode)
    (hne : mode = .nearest → I ≠ .fp .i128 38)
    (hS : negS x = true ↔ num x < 0) (hT : negT y = true ↔ num y < 0)
    (hmn : num mn = least I) (hmx : num mx = greatest I) :
    ∃ c, (ImplOp.saturatingRmul cfg negS negT mn mx l r im x y mode : Res ε _) = .ok c ∧
      num c = max (least I) (min (greatest I) (roundIn I mode (num x * num y))) := by
  have hw : ∀ w, I = .int w → 8 ≤ w := by cases im; simp
  exact saturating_default (C51_rmul_partial hv l r im x y mode hne) (has_range hw mode)
    (roundIn_sign I mode _) rfl hS hT hmn hmx

example := C51_saturating_rmul_partial (ε := Unit) (cfg := debugCfg) (S := .fp .i64 9)
  (T := .fp .i64 9) (I := .fp .i64 9) (by unfold OpValid; decide)
  (fun x => decide ((show FP .i64 9 from x.val).inner.toInt < 0))
  (fun y => decide ((show FP .i64 9 from y.val).inner.toInt < 0)) ⟨FP.min⟩ ⟨FP.max⟩ (.self .i64 9)
  (.self .i64 9) (.fp .i64 9) ⟨⟨1500000001⟩⟩ ⟨⟨-3⟩⟩ .nearest (fun _ h => by cases h)
  (by decide +kernel) (by decide +kernel) (by decide +kernel) (by decide +kernel)

/-- The left operand of a division as a number of the result type. -/
theorem tryInto_spec {cfg : Cfg} (hv : OpValid cfg I) (l : Operand S I A) (x : Wrapper S) :
    NumOr (mapOk (l.tryInto cfg (l.promote x.val)) Wrapper.mk) (num x) := by
  have hp := promote_num l x
  rw [← hp]
  generalize l.promote x.val = a at *
  cases l with
  | self L P => exact ⟨fun _ => ⟨⟨a⟩, rfl, rfl⟩, fun h => absurd ⟨⟨a⟩, rfl⟩ h⟩
  | int w v hw hv h => exact ⟨fun _ => ⟨⟨a⟩, rfl, rfl⟩, fun h => absurd ⟨⟨a⟩, rfl⟩ h⟩
  | intFp w L P hw h =>
    obtain ⟨h1, h2⟩ := C27_try_from_int (L := L) (P := P) hv (BitVec.toInt a)
    apply numOr_fp
    unfold Operand.tryInto num
    dsimp only
    refine ⟨fun h => ?_, fun h => ?_⟩
    · obtain ⟨c, e, hc⟩ := h1 h
      exact ⟨c, by rw [e, mapErr_ok], hc⟩
    · rw [h2 h, mapErr_err]

/-- C51: a dividend that the result type does not have is an overflow, whatever the divisor. -/
theorem C51_rdiv_dividend {cfg : Cfg} (hv : OpValid cfg I) (l : Operand S I A) (r : Operand T I B)
    (im : RdivImpl B I) (x : Wrapper S) (y : Wrapper T) (mode : RoundMode) (hx : ¬ Has I (num x)) :
    ImplOp.rdiv cfg l r im x y mode = .err .overflow := by
  have := (tryInto_spec hv l x).2 hx
  unfold ImplOp.rdiv
  dsimp only
  cases h : l.tryInto cfg (l.promote x.val) with
  | ok a => rw [h] at this; cases this
  | err e => rw [h] at this; cases this; rfl
  | fault f => rw [h] at this; cases this

example := C51_rdiv_dividend (cfg := debugCfg) (I := .fp .i16 2) (by unfold OpValid; decide)
  (.intFp 16 .i16 2 (by decide) (by decide)) (.intFp 16 .i16 2 (by decide) (by decide)) (.fpInt .i16 2)
  ⟨(1000 : BitVec 16)⟩ ⟨(7 : BitVec 16)⟩ .floor (fun ⟨c, hc⟩ => by
    have h := (C52_bounds c.val).2
    rw [show value c.val = 1000 from hc] at h
    exact absurd h (by decide +kernel))

theorem rdiv_reduce {cfg : Cfg} (hv : OpValid cfg I) (l : Operand S I A) (r : Operand T I B)
    (im : RdivImpl B I) (x : Wrapper S) (y : Wrapper T) (mode : RoundMode) (hx : Has I (num x)) :
    ∃ (a : I.den) (b : B.den), num (⟨a⟩ : Wrapper I) = num x ∧ num (⟨b⟩ : Wrapper B) = num y ∧
      ImplOp.rdiv cfg l r im x y mode = mapOk (im.rdiv cfg a b mode) Wrapper.mk := by
  obtain ⟨c, h1, h2⟩ := (tryInto_spec hv l x).1 hx
  cases h : l.tryInto cfg (l.promote x.val) with
  | ok a =>
    rw [h] at h1
    cases h1
    refine ⟨a, r.promote y.val, h2, promote_num r y, ?_⟩
    unfold ImplOp.rdiv
    dsimp only
    rw [h, ok_bind]
  | err e => rw [h] at h1; cases h1
  | fault f => rw [h] at h1; cases h1

/-- C51: division by zero is reported. -/
theorem C51_rdiv_zero {cfg : Cfg} (hv : OpValid cfg I) (l : Operand S I A) (r : Operand T I B)
    (im : RdivImpl B I) (x : Wrapper S) (y : Wrapper T) (mode : RoundMode) (hx : Has I (num x))
    (hy : num y = 0) : ImplOp.rdiv cfg l r im x y mode = .err .divisionByZero := by
  obtain ⟨a, b, -, hb, h⟩ := rdiv_reduce hv l r im x y mode hx
  rw [h]
  rw [hy] at hb
  cases im with
  | fp L P =>
    exact congrArg (mapOk · (Wrapper.mk (t := .fp L P))) ((C10_rdiv_zero_iff hv a b mode).2 hb)
  | fpInt L P =>
    unfold num at hb
    dsimp only at hb
    exact congrArg (mapOk · (Wrapper.mk (t := .fp L P)))
      ((C12_rdivInt_zero_iff cfg a b mode).2 (by exact_mod_cast hb))
  | int w hw =>
    unfold num at hb
    dsimp only at hb
    exact congrArg (mapOk · (Wrapper.mk (t := .int w)))
      ((C14_int_rdiv_zero_iff (intWidths_pos hw) cfg a b mode).2 (by exact_mod_cast hb))

example := C51_rdiv_zero (cfg := debugCfg) (I := .fp .i64 9) (by unfold OpValid; decide)
  (.intFp 32 .i64 9 (by decide) (by decide)) (.intFp 32 .i64 9 (by decide) (by decide)) (.fpInt .i64 9)
  ⟨(7 : BitVec 32)⟩ ⟨(0 : BitVec 32)⟩ .floor ⟨⟨⟨7000000000⟩⟩, by decide +kernel⟩ (by decide +kernel)

/-- C51: division is the quotient of the wrapped numbers rounded to the digits of the result type,
or an overflow.  Missing: `MIN` divided by the integer `-1`, which panics, and for `Nearest` the
divisors whose double exceeds the greatest number of their (promoted) type, for which the claim is
false like C11, C12, C14. -/
theorem C51_rdiv_partial {cfg : Cfg} (hv : OpValid cfg I) (l : Operand S I A) (r : Operand T I B)
    (im : RdivImpl B I) (x : Wrapper S) (y : Wrapper T) (mode : RoundMode) (hx : Has I (num x))
    (hy : num y ≠ 0) (hmin : ¬ (num x = least I ∧ num y = -1))
    (hn : mode = .nearest → 2 * |num y| ≤ greatest B) :
    NumOr (ImplOp.rdiv cfg l r im x y mode) (roundIn I mode (num x / num y)) := by
  obtain ⟨a, b, ha, hb, h⟩ := rdiv_reduce hv l r im x y mode hx
  rw [h]
  rw [← ha, ← hb] at hmin ⊢
  rw [← hb] at hy hn
  cases im with
  | fp L P =>
    apply numOr_fp
    by_cases hm : mode = .nearest
    · subst hm
      exact C11_rdiv_nearest_small_partial hv a b hy (hn rfl)
    · exact C10_rdiv_directed hv a b mode hm hy
  | fpInt L P =>
    apply numOr_fp
    unfold num at hy hmin hn
    dsimp only at hy hmin hn
    have hb0 : BitVec.toInt b ≠ 0 := by exact_mod_cast hy
    have hmin' : ¬ (a.inner.toInt = rawMin L ∧ BitVec.toInt b = -1) := by
      rintro ⟨h1, h2⟩
      refine hmin ⟨?_, by rw [h2]; norm_num⟩
      unfold value least minValue
      rw [h1]
    apply C12_rdivInt_partial cfg a b mode hb0 hmin'
    intro hm _
    have h2 := hn hm
    unfold greatest at h2
    have h3 : 2 * |BitVec.toInt b| ≤ rawMax L := by
      unfold rawMax
      have : (2 * |BitVec.toInt b| : ℚ) ≤ ((2 ^ (L.bits - 1) - 1 : Int) : ℚ) := by
        push_cast; exact h2
      exact_mod_cast this
    have h4 := tmod_abs_lt a.inner.toInt hb0
    refine ⟨by omega, fun hc => ?_⟩
    rw [hc] at h3
    have hp : (0 : Int) < 2 ^ (L.bits - 1) := by positivity
    unfold rawMin rawMax at h3
    rw [abs_neg, abs_of_pos hp] at h3
    omega
  | int w hw =>
    have hw' := intWidths_pos hw
    unfold num at hy hmin hn
    dsimp only at hy hmin hn
    have hb0 : BitVec.toInt b ≠ 0 := by exact_mod_cast hy
    refine numOr_int hw' (C14_int_rdiv_partial hw' cfg a b mode hb0 ?_ ?_) rfl
    · rintro ⟨h1, h2⟩
      refine hmin ⟨?_, by rw [h2]; norm_num⟩
      unfold least
      rw [h1]
      push_cast; rfl
    · intro hm _
      have h2 := hn hm
      unfold greatest at h2
      have h3 : 2 * |BitVec.toInt b| ≤ 2 ^ (w - 1) - 1 := by
        have : (2 * |BitVec.toInt b| : ℚ) ≤ ((2 ^ (w - 1) - 1 : Int) : ℚ) := by
          push_cast; exact h2
        exact_mod_cast this
      have h4 := tmod_abs_lt (BitVec.toInt a) hb0
      refine ⟨by omega, fun hc => ?_⟩
      rw [hc] at h3
      have hp : (0 : Int) < 2 ^ (w - 1) := by positivity
      rw [abs_neg, abs_of_pos hp] at h3
      omega

example := C51_rdiv_partial (cfg := debugCfg) (I := .fp .i64 9) (by unfold OpValid; decide)
  (.intFp 32 .i64 9 (by decide) (by decide)) (.intFp 32 .i64 9 (by decide) (by decide)) (.fpInt .i64 9)
  ⟨(7 : BitVec 32)⟩ ⟨(-3 : BitVec 32)⟩ .nearest ⟨⟨⟨7000000000⟩⟩, by decide +kernel⟩ (by decide +kernel)
  (by decide +kernel) (by decide +kernel)

/-- C51, the documented example: `impl_op!(Size [rdiv] Size = Ratio)` for integer sizes. -/
theorem C51_size_ratio_partial {cfg : Cfg} {L : Layout} {P w : Nat} (hv : Valid cfg L P)
    (hw : w ∈ intWidths) (hwL : w ≤ L.bits) (x y : BitVec w) (mode : RoundMode)
    (hx : Representable L P x.toInt) (hy : y.toInt ≠ 0)
    (hn : mode = .nearest → 2 * |y.toInt| ≤ rawMax L)
    (hmin : ¬ ((x.toInt : ℚ) = minValue L P ∧ y.toInt = -1)) :
    NumOr (ImplOp.rdiv cfg (.intFp w L P hw hwL) (.intFp w L P hw hwL) (.fpInt L P) ⟨x⟩ ⟨y⟩ mode)
      (roundTo P mode ((x.toInt : ℚ) / y.toInt)) := by
  refine C51_rdiv_partial (S := .int w) (T := .int w) (I := .fp L P) hv _ _ _ ⟨x⟩ ⟨y⟩ mode ?_ ?_ ?_ ?_
  · obtain ⟨c, hc⟩ := hx
    exact ⟨⟨c⟩, hc⟩
  · unfold num
    dsimp only
    exact_mod_cast hy
  · unfold num least
    dsimp only
    rintro ⟨h1, h2⟩
    exact hmin ⟨h1, by exact_mod_cast h2⟩
  · intro h
    have := hn h
    unfold num greatest
    unfold rawMax at this
    dsimp only
    have h2 : ((2 * |y.toInt| : Int) : ℚ) ≤ ((2 ^ (L.bits - 1) - 1 : Int) : ℚ) := by
      exact_mod_cast this
    push_cast at h2
    exact h2

example := C51_size_ratio_partial (cfg := debugCfg) (L := .i64) (P := 9) (w := 32) (by decide) (by decide)
  (by decide) 7 (-3) .nearest ⟨⟨7000000000⟩, by decide +kernel⟩ (by decide +kernel) (by decide +kernel)
  (by decide +kernel)

/-- C51 is false for `MIN / -1` on integers (and by C12 for fixed-point numbers divided by the
integer `-1`): a panic in every profile. -/
theorem C51_rdiv_false (cfg : Cfg) (mode : RoundMode) :
    ImplOp.rdiv cfg (.int 32 32 (by decide) (by decide) (by decide))
      (.int 32 32 (by decide) (by decide) (by decide)) (.int 32 (by decide))
      ⟨(0x80000000 : BitVec 32)⟩ ⟨(-1 : BitVec 32)⟩ mode = .panic := by
  have := (C14_int_rdiv_min_false (w := 32) cfg 0x80000000 (-1) mode (by decide) (by decide)).1
  unfold ImplOp.rdiv Operand.promote Operand.tryInto RdivImpl.rdiv
  dsimp only
  rw [ok_bind]
  have e1 : SInt.cast 32 (0x80000000 : BitVec 32) = 0x80000000 := by decide +kernel
  have e2 : SInt.cast 32 (-1 : BitVec 32) = -1 := by decide +kernel
  rw [e1, e2, this]
  rfl

-- `Size(7) / Size(-3)` with `Ratio(FixedPoint<i64, U9>)`, and a dividend too large for `Ratio`
example : (ImplOp.rdiv debugCfg (.intFp 32 .i64 9 (by decide) (by decide))
      (.intFp 32 .i64 9 (by decide) (by decide)) (.fpInt .i64 9) ⟨(7 : BitVec 32)⟩ ⟨(-3 : BitVec 32)⟩
      .floor).mapOk Wrapper.val = .ok (⟨-2333333334⟩ : FP .i64 9) ∧
    (ImplOp.rdiv debugCfg (.intFp 16 .i16 2 (by decide) (by decide))
      (.intFp 16 .i16 2 (by decide) (by decide)) (.fpInt .i16 2) ⟨(1000 : BitVec 16)⟩
      ⟨(1000 : BitVec 16)⟩ .floor).mapOk Wrapper.val = (.err .overflow : Res ArithErr (FP .i16 2)) ∧
    (ImplOp.cmul (.intFp 32 .i64 9 (by decide) (by decide)) (.self .i64 9) (.intFp .i64 9)
      ⟨(-7 : BitVec 32)⟩ ⟨⟨1500000000⟩⟩).mapOk Wrapper.val = .ok (⟨-10500000000⟩ : FP .i64 9) ∧
    (ImplOp.cadd (.int 8 16 (by decide) (by decide) (by decide))
      (.int 16 16 (by decide) (by decide) (by decide)) (.int 16 (by decide)) ⟨(100 : BitVec 8)⟩
      ⟨(100 : BitVec 16)⟩).mapOk Wrapper.val = (.ok 200 : Res ArithErr (BitVec 16)) := by
  decide +kernel
example : OpValid debugCfg (.fp .i64 9) ∧ Has (.fp .i64 9) 7 := by
  refine ⟨by unfold OpValid; decide +kernel, ⟨⟨7000000000⟩⟩, ?_⟩
  unfold num value
  have : ((⟨7000000000⟩ : FP .i64 9).inner.toInt) = 7000000000 := by decide +kernel
  dsimp only
  rw [this]
  norm_num

/-! ### Which invocations there are -/

namespace Spec

/-- The signed integers of the language (`isize` is left out by the crate). -/
def IntType (t : OpTy) : Prop :=
  t = .int 8 ∨ t = .int 16 ∨ t = .int 32 ∨ t = .int 64 ∨ t = .int 128

/-- The width of the type that a number is stored in. -/
def storage : OpTy → Nat
  | .fp L _ => L.bits
  | .int w => w

/-- `S` is an integer type no wider than the storage of `I`. -/
def IntIn (S I : OpTy) : Prop := IntType S ∧ storage S ≤ storage I

/-- `I` is a fixed-point type. -/
def IsFp : OpTy → Prop
  | .fp _ _ => True
  | .int _ => False

end Spec

theorem mem_intWidths (w : Nat) : w ∈ intWidths ↔ IntType (.int w) := by
  unfold intWidths IntType
  simp

theorem operand_int {v : Nat} : (∃ A, Nonempty (Operand S (.int v) A)) ↔
    IntType (.int v) ∧ IntIn S (.int v) := by
  constructor
  · rintro ⟨_, ⟨_ | ⟨w, _, hw, hv, h⟩ | _⟩⟩
    exact ⟨(mem_intWidths _).1 hv, (mem_intWidths _).1 hw, h⟩
  · rintro ⟨hv, hS, h⟩
    cases S with
    | fp L P => simp [IntType] at hS
    | int w => exact ⟨_, ⟨.int w v ((mem_intWidths _).2 hS) ((mem_intWidths _).2 hv) h⟩⟩

theorem operand_int_prom {v : Nat} (o : Operand S (.int v) A) : A = .int v := by
  cases o; rfl

theorem operand_fp {L : Layout} {P : Nat} : Nonempty (Operand S (.fp L P) A) ↔
    (S = .fp L P ∧ A = .fp L P) ∨ (IntIn S (.fp L P) ∧ A = .int L.bits) := by
  constructor
  · rintro ⟨_ | _ | ⟨w, _, _, hw, h⟩⟩
    · exact .inl ⟨rfl, rfl⟩
    · exact .inr ⟨⟨(mem_intWidths _).1 hw, h⟩, rfl⟩
  · rintro (⟨rfl, rfl⟩ | ⟨⟨hS, h⟩, rfl⟩)
    · exact ⟨.self L P⟩
    · cases S with
      | fp L P => simp [IntType] at hS
      | int w => exact ⟨.intFp w L P ((mem_intWidths _).2 hS) h⟩

/-- C51: the invocations `impl_op!(S [op] T = I)` that compile.  Sums and differences are of one
fixed-point type or of integers no wider than the result; a fixed-point product without rounding has
one integer factor, with rounding none; in a quotient each operand may be an integer. -/
theorem C51_compiles (S T I : OpTy) :
    ((∃ A B, Nonempty (Operand S I A) ∧ Nonempty (Operand T I B) ∧ Nonempty (AddImpl A B I)) ↔
      (IsFp I ∧ S = I ∧ T = I) ∨ (IntType I ∧ IntIn S I ∧ IntIn T I)) ∧
    ((∃ A B, Nonempty (Operand S I A) ∧ Nonempty (Operand T I B) ∧ Nonempty (CmulImpl A B I)) ↔
      (IsFp I ∧ (S = I ∧ IntIn T I ∨ IntIn S I ∧ T = I)) ∨ (IntType I ∧ IntIn S I ∧ IntIn T I)) ∧
    ((∃ A B, Nonempty (Operand S I A) ∧ Nonempty (Operand T I B) ∧ Nonempty (RmulImpl A B I)) ↔
      IsFp I ∧ S = I ∧ T = I) ∧
    ((∃ A B, Nonempty (Operand S I A) ∧ Nonempty (Operand T I B) ∧ Nonempty (RdivImpl B I)) ↔
      (IsFp I ∧ (S = I ∨ IntIn S I) ∧ (T = I ∨ IntIn T I)) ∨
      (IntType I ∧ IntIn S I ∧ IntIn T I)) := by
  cases I with
  | int v =>
    have hf : ¬ IsFp (.int v) := id
    have key : ∀ Q : OpTy → OpTy → Prop, (IntType (.int v) → Q (.int v) (.int v)) →
        ((∃ A B, Nonempty (Operand S (.int v) A) ∧ Nonempty (Operand T (.int v) B) ∧ Q A B) ↔
          IntType (.int v) ∧ IntIn S (.int v) ∧ IntIn T (.int v)) := by
      intro Q hQ
      constructor
      · rintro ⟨A, B, h1, h2, -⟩
        obtain ⟨a, b⟩ := operand_int.1 ⟨A, h1⟩
        exact ⟨a, b, (operand_int.1 ⟨B, h2⟩).2⟩
      · rintro ⟨a, b, c⟩
        obtain ⟨A, ⟨hA⟩⟩ := operand_int.2 ⟨a, b⟩
        obtain ⟨B, ⟨hB⟩⟩ := operand_int.2 ⟨a, c⟩
        obtain rfl := operand_int_prom hA
        obtain rfl := operand_int_prom hB
        exact ⟨_, _, ⟨hA⟩, ⟨hB⟩, hQ a⟩
    refine ⟨?_, ?_, ?_, ?_⟩
    · rw [key (fun A B => Nonempty (AddImpl A B (.int v)))
        (fun h => ⟨.int v ((mem_intWidths v).2 h)⟩)]
      tauto
    · rw [key (fun A B => Nonempty (CmulImpl A B (.int v)))
        (fun h => ⟨.int v ((mem_intWidths v).2 h)⟩)]
      tauto
    · constructor
      · rintro ⟨_, _, -, -, ⟨h⟩⟩
        cases h
      · tauto
    · rw [key (fun _ B => Nonempty (RdivImpl B (.int v)))
        (fun h => ⟨.int v ((mem_intWidths v).2 h)⟩)]
      tauto
  | fp L P =>
    have hf : IsFp (.fp L P) := trivial
    have hi : ¬ IntType (.fp L P) := by simp [IntType]
    simp only [operand_fp]
    refine ⟨?_, ?_, ?_, ?_⟩
    · constructor
      · rintro ⟨_, _, h1, h2, ⟨h3⟩⟩
        cases h3
        simp_all
      · rintro (⟨-, rfl, rfl⟩ | ⟨h, -⟩)
        · exact ⟨_, _, .inl ⟨rfl, rfl⟩, .inl ⟨rfl, rfl⟩, ⟨.fp L P⟩⟩
        · exact absurd h hi
    · constructor
      · rintro ⟨_, _, h1, h2, ⟨_ | _⟩⟩ <;> simp_all
      · rintro (⟨-, ⟨rfl, h⟩ | ⟨h, rfl⟩⟩ | ⟨h, -⟩)
        · exact ⟨_, _, .inl ⟨rfl, rfl⟩, .inr ⟨h, rfl⟩, ⟨.fpInt L P⟩⟩
        · exact ⟨_, _, .inr ⟨h, rfl⟩, .inl ⟨rfl, rfl⟩, ⟨.intFp L P⟩⟩
        · exact absurd h hi
    · constructor
      · rintro ⟨_, _, h1, h2, ⟨h3⟩⟩
        cases h3
        simp_all
      · rintro ⟨-, rfl, rfl⟩
        exact ⟨_, _, .inl ⟨rfl, rfl⟩, .inl ⟨rfl, rfl⟩, ⟨.fp L P⟩⟩
    · constructor
      · rintro ⟨A, B, h1, h2, ⟨h3⟩⟩
        refine .inl ⟨hf, h1.imp (·.1) (·.1), h2.imp (·.1) (·.1)⟩
      · rintro (⟨-, hS, hT⟩ | ⟨h, -⟩)
        · obtain ⟨A, hA⟩ : ∃ A : OpTy, (S = .fp L P ∧ A = .fp L P) ∨ (IntIn S (.fp L P) ∧ A = .int L.bits) :=
            hS.elim (fun h => ⟨_, .inl ⟨h, rfl⟩⟩) fun h => ⟨_, .inr ⟨h, rfl⟩⟩
          rcases hT with h | h
          · exact ⟨A, _, hA, .inl ⟨h, rfl⟩, ⟨.fp L P⟩⟩
          · exact ⟨A, _, hA, .inr ⟨h, rfl⟩, ⟨.fpInt L P⟩⟩
        · exact absurd h hi

-- an `i32` size by a price is an amount, two sizes give a ratio; an `i128` is too wide for `i64`
example : IntIn (.int 32) (.fp .i64 9) ∧ IntIn (.int 128) (.fp .i128 18) ∧
    ¬ IntIn (.int 128) (.fp .i64 9) ∧ ¬ IntIn (.int 24) (.fp .i64 9) := by
  simp [IntIn, IntType, storage, Layout.bits]

end Fixnum
