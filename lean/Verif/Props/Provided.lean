import Verif.Provided
import Verif.Props.ImplOp

/-! # Property C65: the provided saturating methods, for any implementor -/

namespace Fixnum

open Res Spec

variable {S R O E ε : Type}

/-- What an implementor promises about a checked operation with the exact result `q`: it is returned
if it lies between the bounds `m` and `M` of the output type, otherwise there is an error. -/
def ChecksRange (num : O → ℚ) (m M : ℚ) (res : Res E O) (q : ℚ) : Prop :=
  (m ≤ q → q ≤ M → ∃ c, res = .ok c ∧ num c = q) ∧ (q < m ∨ M < q → ∃ e, res = .err e)

/-- The hypotheses hold of the primitive integers. -/
theorem checksRange_int {w : Nat} (hw : 8 ≤ w) (z : Int) :
    ChecksRange (fun b : BitVec w => (b.toInt : ℚ)) (iMin w) (iMax w)
      (Res.ofOption ArithErr.overflow (SInt.checked w z)) z := by
  constructor
  · intro h1 h2
    have hf : Fits w z := ⟨by exact_mod_cast h1, by exact_mod_cast h2⟩
    exact ⟨_, by rw [SInt.checked_fits hf]; rfl, by dsimp only; rw [toInt_ofInt_of_fits (by omega) hf]⟩
  · intro h
    have hf : ¬ Fits w z := by
      rintro ⟨h1, h2⟩
      have h1 : (iMin w : ℚ) ≤ z := by exact_mod_cast h1
      have h2 : (z : ℚ) ≤ iMax w := by exact_mod_cast h2
      rcases h with h | h <;> linarith
    exact ⟨_, by rw [SInt.checked_not hf]; rfl⟩

example : ChecksRange (fun b : BitVec 8 => (b.toInt : ℚ)) (iMin 8) (iMax 8)
    (SInt.cadd (100 : BitVec 8) 100) ((200 : Int) : ℚ) := checksRange_int (by norm_num) 200

theorem unwrapOr_clamp {num : O → ℚ} {m M : ℚ} {res : Res E O} {q : ℚ} {d : O} (hm : m ≤ M)
    (h : ChecksRange num m M res q) (hlo : q < m → num d = m) (hhi : M < q → num d = M) :
    ∃ c, (unwrapOr res d : Res ε O) = .ok c ∧ num c = max m (min M q) := by
  rcases lt_or_ge q m with h1 | h1
  · obtain ⟨e, he⟩ := h.2 (.inl h1)
    exact ⟨d, by rw [he, unwrapOr_err], by rw [hlo h1, min_eq_right (by linarith), max_eq_left h1.le]⟩
  · rcases lt_or_ge M q with h2 | h2
    · obtain ⟨e, he⟩ := h.2 (.inr h2)
      exact ⟨d, by rw [he, unwrapOr_err], by rw [hhi h2, min_eq_left h2.le, max_eq_right hm]⟩
    · obtain ⟨c, h3, h4⟩ := h.1 h1 h2
      exact ⟨c, by rw [h3, unwrapOr_ok], by rw [h4, min_eq_right h2, max_eq_right h1]⟩

/-- C65: the provided `saturating_add` clamps the exact sum to the bounds of the output type, if the
left operand lies between them. -/
theorem C65_saturating_add (numS : S → ℚ) (numR : R → ℚ) (num : O → ℚ) (negR : R → Bool) (mn mx : O)
    (cadd : S → R → Res E O) (x : S) (y : R) (hR : negR y = true ↔ numR y < 0)
    (hx : num mn ≤ numS x) (hx' : numS x ≤ num mx)
    (h : ChecksRange num (num mn) (num mx) (cadd x y) (numS x + numR y)) :
    ∃ c, (Provided.saturatingAdd negR mn mx cadd x y : Res ε O) = .ok c ∧
      num c = max (num mn) (min (num mx) (numS x + numR y)) := by
  unfold Provided.saturatingAdd
  dsimp only
  refine unwrapOr_clamp (hx.trans hx') h (fun hlt => ?_) (fun hlt => ?_)
  · rw [if_pos (hR.2 (by linarith))]
  · rw [if_neg (fun hc => by have := hR.1 hc; linarith)]

example := C65_saturating_add (ε := Unit) (fun b : BitVec 8 => (b.toInt : ℚ))
  (fun b : BitVec 8 => (b.toInt : ℚ)) (fun b : BitVec 8 => (b.toInt : ℚ))
  (fun r => decide (r.toInt < 0)) (-128) 127 SInt.cadd 100 100 (by decide +kernel)
  (by decide +kernel) (by decide +kernel)
  (by convert checksRange_int (w := 8) (by norm_num) 200 using 1 <;> decide +kernel)

/-- C65: likewise `saturating_sub`. -/
theorem C65_saturating_sub (numS : S → ℚ) (numR : R → ℚ) (num : O → ℚ) (negR : R → Bool) (mn mx : O)
    (csub : S → R → Res E O) (x : S) (y : R) (hR : negR y = true ↔ numR y < 0)
    (hx : num mn ≤ numS x) (hx' : numS x ≤ num mx)
    (h : ChecksRange num (num mn) (num mx) (csub x y) (numS x - numR y)) :
    ∃ c, (Provided.saturatingSub negR mn mx csub x y : Res ε O) = .ok c ∧
      num c = max (num mn) (min (num mx) (numS x - numR y)) := by
  unfold Provided.saturatingSub
  dsimp only
  refine unwrapOr_clamp (hx.trans hx') h (fun hlt => ?_) (fun hlt => ?_)
  · rw [if_neg (fun hc => by have := hR.1 hc; linarith)]
  · rw [if_pos (hR.2 (by linarith))]

example := C65_saturating_sub (ε := Unit) (fun b : BitVec 8 => (b.toInt : ℚ))
  (fun b : BitVec 8 => (b.toInt : ℚ)) (fun b : BitVec 8 => (b.toInt : ℚ))
  (fun r => decide (r.toInt < 0)) (-128) 127 SInt.csub (-100) 100 (by decide +kernel)
  (by decide +kernel) (by decide +kernel)
  (by convert checksRange_int (w := 8) (by norm_num) (-200) using 1 <;> decide +kernel)

/-- C65: the provided `saturating_mul` and `saturating_rmul` clamp the result `q` of the operation,
which need only have the sign of the product (the exact product, or the product rounded in any mode),
if zero lies between the bounds; the operands may be of any range. -/
theorem C65_saturating_mul (numS : S → ℚ) (numR : R → ℚ) (num : O → ℚ) (negS : S → Bool)
    (negR : R → Bool) (mn mx : O) (cmul : S → R → Res E O) (x : S) (y : R) (q : ℚ)
    (hS : negS x = true ↔ numS x < 0) (hR : negR y = true ↔ numR y < 0)
    (hmn : num mn ≤ 0) (hmx : 0 ≤ num mx)
    (hq : (0 ≤ numS x * numR y → 0 ≤ q) ∧ (numS x * numR y ≤ 0 → q ≤ 0))
    (h : ChecksRange num (num mn) (num mx) (cmul x y) q) :
    ∃ c, (Provided.saturatingMul negS negR mn mx cmul x y : Res ε O) = .ok c ∧
      num c = max (num mn) (min (num mx) q) := by
  unfold Provided.saturatingMul
  dsimp only
  refine unwrapOr_clamp (hmn.trans hmx) h (fun hlt => ?_) (fun hlt => ?_)
  · have hneg : numS x * numR y < 0 := by
      by_contra hc
      have := hq.1 (not_lt.1 hc)
      linarith
    rw [if_neg]
    intro hb
    have hb : negS x = negR y := by simpa using hb
    by_cases hs : numS x < 0
    · have h2 := hR.1 (by rw [← hb]; exact hS.2 hs)
      have := mul_pos_of_neg_of_neg hs h2
      linarith
    · have h2 : ¬ numR y < 0 := fun h => hs (hS.1 (by rw [hb]; exact hR.2 h))
      have := mul_nonneg (not_lt.1 hs) (not_lt.1 h2)
      linarith
  · have hpos : 0 < numS x * numR y := by
      by_contra hc
      have := hq.2 (not_lt.1 hc)
      linarith
    rw [if_pos]
    rw [beq_iff_eq, Bool.eq_iff_iff, hS, hR]
    constructor
    · intro h1
      by_contra h2
      have := mul_nonpos_of_nonpos_of_nonneg h1.le (not_lt.1 h2)
      linarith
    · intro h1
      by_contra h2
      have := mul_nonpos_of_nonneg_of_nonpos (not_lt.1 h2) h1.le
      linarith

example := C65_saturating_mul (ε := Unit) (fun b : BitVec 8 => (b.toInt : ℚ))
  (fun b : BitVec 8 => (b.toInt : ℚ)) (fun b : BitVec 8 => (b.toInt : ℚ))
  (fun r => decide (r.toInt < 0)) (fun r => decide (r.toInt < 0)) (-128) 127 SInt.cmul (-3) 100
  (-300) (by decide +kernel) (by decide +kernel) (by decide +kernel) (by decide +kernel)
  (by decide +kernel)
  (by convert checksRange_int (w := 8) (by norm_num) (-300) using 1 <;> decide +kernel)

/-- The crate's own users of these bodies: `saturating_rmul` of `FixedPoint` and of the wrappers, and
`saturating_mul` of the wrappers. -/
theorem C65_instances {L : Layout} {P : Nat} (cfg : Cfg) (a b : FP L P) (mode : RoundMode) :
    (FP.saturatingRmul cfg a b mode : Res ε _) =
      Provided.saturatingMul (fun a => decide (FP.cmp a FP.zero = .lt))
        (fun b => decide (FP.cmp b FP.zero = .lt)) FP.min FP.max
        (fun a b => FP.rmul cfg a b mode) a b := rfl

example : (FP.saturatingRmul debugCfg (⟨-30000⟩ : FP .i16 1) ⟨30000⟩ .floor : Res Unit _) =
    .ok FP.min := by decide +kernel

/-- C65, out of the domain: if the left operand is not in the range of the output type, the provided
`saturating_add` may end at the wrong bound: here 1000 + (-1) with the output type `i8`. -/
theorem C65_wide_left_outside_domain :
    let cadd : BitVec 64 → BitVec 64 → Res ArithErr (BitVec 8) := fun a b =>
      Res.ofOption ArithErr.overflow (SInt.tryFrom 8 (a.toInt + b.toInt))
    (Provided.saturatingAdd (fun r : BitVec 64 => decide (r.toInt < 0)) (-128) 127 cadd 1000 (-1) :
      Res Unit (BitVec 8)) = .ok (-128) := by
  decide +kernel

-- 100 + 100 and -100 - 100 on a user type holding an `i8`; -3 * 100
example :
    (Provided.saturatingAdd (fun r : BitVec 8 => decide (r.toInt < 0)) (-128) 127 SInt.cadd 100 100 :
      Res Unit (BitVec 8)) = .ok 127 ∧
    (Provided.saturatingSub (fun r : BitVec 8 => decide (r.toInt < 0)) (-128) 127 SInt.csub (-100)
      100 : Res Unit (BitVec 8)) = .ok (-128) ∧
    (Provided.saturatingMul (fun r : BitVec 8 => decide (r.toInt < 0))
      (fun r : BitVec 8 => decide (r.toInt < 0)) (-128) 127 SInt.cmul (-3) 100 :
      Res Unit (BitVec 8)) = .ok (-128) := by
  decide +kernel

end Fixnum
