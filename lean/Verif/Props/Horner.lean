import Verif.Props.Clients
import Verif.Props.ErrorMax
import Verif.Props.WeightedMean
import Mathlib.Algebra.BigOperators.Fin

/-! # Property C126: polynomials by Horner's scheme

Client code: `for c in coefficients { acc = acc.rmul(x, mode)?.cadd(c)?; }`, the leading coefficient
first; with a discount factor for `x` this is the present value of payments. -/

namespace Fixnum

open Res Spec

variable {L : Layout} {P : Nat}

/-- The loop of the client. -/
def horner (cfg : Cfg) (mode : RoundMode) (x : FP L P) : List (FP L P) → FP L P → Res ArithErr (FP L P)
  | [], acc => .ok acc
  | c :: cs, acc => do
    let acc ← FP.rmul cfg acc x mode
    let acc ← FP.cadd acc c
    horner cfg mode x cs acc

/-- The polynomial with the leading coefficient `q` and the further ones `cs`: each coefficient times the
power of `x` of its place. -/
def Spec.poly (x : ℚ) (cs : List (FP L P)) (q : ℚ) : ℚ :=
  q * x ^ cs.length + ∑ i : Fin cs.length, value cs[i] * x ^ (cs.length - 1 - i)

theorem poly_nil (x q : ℚ) : poly x ([] : List (FP L P)) q = q := by
  simp [poly]

theorem poly_cons (x q : ℚ) (c : FP L P) (cs : List (FP L P)) :
    poly x (c :: cs) q = poly x cs (q * x + value c) := by
  unfold poly
  have e : ∑ i : Fin (c :: cs).length, value (c :: cs)[i] * x ^ ((c :: cs).length - 1 - i) =
      value c * x ^ cs.length + ∑ i : Fin cs.length, value cs[i] * x ^ (cs.length - 1 - i) := by
    show ∑ i : Fin (cs.length + 1), value (c :: cs)[i] * x ^ (cs.length + 1 - 1 - i) = _
    rw [Fin.sum_univ_succ]
    congr 1
    refine Finset.sum_congr rfl fun i _ => ?_
    simp only [Fin.val_succ, Fin.getElem_fin, List.getElem_cons_succ]
    congr 2
    omega
  rw [e, List.length_cons, pow_succ]
  ring

theorem poly_mono {x q r : ℚ} (hx : 0 ≤ x) (cs : List (FP L P)) (h : q ≤ r) :
    poly x cs q ≤ poly x cs r := by
  unfold poly
  have := mul_le_mul_of_nonneg_right h (pow_nonneg hx cs.length)
  linarith

theorem poly_sub (x q r : ℚ) (cs : List (FP L P)) :
    poly x cs q - poly x cs r = (q - r) * x ^ cs.length := by
  unfold poly
  ring

theorem horner_cons {cfg : Cfg} {mode : RoundMode} {x c a r : FP L P} {cs : List (FP L P)}
    (h : horner cfg mode x (c :: cs) a = .ok r) :
    ∃ p s, FP.rmul cfg a x mode = .ok p ∧ value s = value p + value c ∧
      horner cfg mode x cs s = .ok r := by
  unfold horner at h
  obtain ⟨p, h1, h⟩ := bind_ok_of h
  obtain ⟨s, h2, h⟩ := bind_ok_of h
  exact ⟨p, s, h1, C01_cadd_ok _ _ _ h2, h⟩

/-- C126: for `x ≥ 0` the result with `Floor` is not above the value of the polynomial, that with `Ceil`
not below it, whatever the signs of the coefficients. -/
theorem C126_directed {cfg : Cfg} (hv : Valid cfg L P) (x : FP L P) (hx : 0 ≤ value x)
    (cs : List (FP L P)) (a r : FP L P) :
    (horner cfg .floor x cs a = .ok r → value r ≤ poly (value x) cs (value a)) ∧
    (horner cfg .ceil x cs a = .ok r → poly (value x) cs (value a) ≤ value r) := by
  induction cs generalizing a with
  | nil =>
    constructor <;> intro h <;> unfold horner at h <;> cases h <;> rw [poly_nil]
  | cons c cs ih =>
    rw [poly_cons]
    constructor
    · intro h
      obtain ⟨p, s, h1, h2, h3⟩ := horner_cons h
      refine le_trans ((ih s).1 h3) (poly_mono hx cs ?_)
      rw [h2, ((C07_rmul_partial hv a x .floor (by simp)).ok_iff p).1 h1]
      linarith [(roundTo_floor_spec P (value a * value x)).1]
    · intro h
      obtain ⟨p, s, h1, h2, h3⟩ := horner_cons h
      refine le_trans (poly_mono hx cs ?_) ((ih s).2 h3)
      rw [h2, ((C07_rmul_partial hv a x .ceil (by simp)).ok_iff p).1 h1]
      linarith [(roundTo_ceil_spec P (value a * value x)).1]

/-- `3 x² - 2.5 x + 1` at `0.33`: 0.5017. -/
example : horner debugCfg .floor (⟨33⟩ : FP .i64 2) [⟨-250⟩, ⟨100⟩] ⟨300⟩ = .ok ⟨50⟩ ∧
    horner debugCfg .ceil (⟨33⟩ : FP .i64 2) [⟨-250⟩, ⟨100⟩] ⟨300⟩ = .ok ⟨51⟩ := by decide +kernel
example := (C126_directed (cfg := debugCfg) (by decide) (⟨33⟩ : FP .i64 2) (by decide +kernel)
  [⟨-250⟩, ⟨100⟩] ⟨300⟩ ⟨50⟩).1 (by decide +kernel)
example : poly (33 / 100) [(⟨-250⟩ : FP .i64 2), ⟨100⟩] 3 = 5017 / 10000 := by
  rw [poly_cons, poly_cons, poly_nil, value_eq _ (-250) (by decide), value_eq _ 100 (by decide)]
  norm_num

/-- C126: in every mode and build the result misses the value of the polynomial by at most
`1 + |x| + ... + |x|^(n-1)` units, `n` the degree. -/
theorem C126_error {cfg : Cfg} (hv : Valid cfg L P) (mode : RoundMode) (x : FP L P)
    (cs : List (FP L P)) (a r : FP L P) (h : horner cfg mode x cs a = .ok r) :
    |value r - poly (value x) cs (value a)| ≤
      (∑ i ∈ Finset.range cs.length, |value x| ^ i) * value (FP.epsilon : FP L P) := by
  rw [C52_epsilon.1]
  induction cs generalizing a with
  | nil =>
    unfold horner at h
    cases h
    simp [poly_nil]
  | cons c cs ih =>
    obtain ⟨p, s, h1, h2, h3⟩ := horner_cons h
    have k := ih s h3
    have e := (C116_below_one_unit (ε := Unit) hv a x p (BitVec.ofInt _ 0) mode).1 h1
    rw [poly_cons, List.length_cons, Finset.sum_range_succ]
    have d := poly_sub (value x) (value s) (value a * value x + value c) cs
    have hb : |poly (value x) cs (value s) - poly (value x) cs (value a * value x + value c)| ≤
        |value x| ^ cs.length * (1 / 10 ^ P) := by
      rw [d, abs_mul, abs_pow, mul_comm]
      refine mul_le_mul_of_nonneg_left ?_ (by positivity)
      rw [h2]
      have : value p + value c - (value a * value x + value c) = value p - value a * value x := by ring
      rw [this]
      exact e.le
    have t := abs_sub_le (value r) (poly (value x) cs (value s))
      (poly (value x) cs (value a * value x + value c))
    rw [add_mul]
    linarith

example := C126_error (cfg := debugCfg) (by decide) .nearest (⟨33⟩ : FP .i64 2)
  [⟨-250⟩, ⟨100⟩] ⟨300⟩ ⟨50⟩ (by decide +kernel)

theorem abs_roundTo_le (m : RoundMode) (a : FP L P) {q : ℚ} (h : |q| ≤ |value a|) :
    |roundTo P m q| ≤ |value a| := by
  have neg : ∀ x : FP L P, roundTo P m (-value x) = -value x := by
    intro x
    have : -value x = ((-x.inner.toInt : Int) : ℚ) / 10 ^ P := by unfold value; push_cast; ring
    rw [this]
    unfold roundTo
    rw [div_mul_cancel₀ _ (ten_pow_ne P), round_int]
  obtain ⟨h1, h2⟩ := abs_le.1 h
  rw [abs_le]
  rcases abs_choice (value a) with e | e <;> rw [e] at h1 h2 ⊢
  · exact ⟨by rw [← neg]; exact roundTo_mono P m h1,
      by conv_rhs => rw [← roundTo_value m a]
         exact roundTo_mono P m h2⟩
  · rw [neg_neg] at h1 ⊢
    exact ⟨by conv_lhs => rw [← roundTo_value m a]
              exact roundTo_mono P m h1,
      by rw [← neg]; exact roundTo_mono P m h2⟩

theorem representable_of_abs_le {z : Int} (h : |(z : ℚ) / 10 ^ P| ≤ maxValue L P) :
    Representable L P ((z : ℚ) / 10 ^ P) := by
  have hp := ten_pow_pos P
  rw [representable_iff, fits_half]
  unfold maxValue at h
  rw [rawMax_half, abs_le, ← neg_div, div_le_div_iff_of_pos_right hp,
    div_le_div_iff_of_pos_right hp] at h
  obtain ⟨h1, h2⟩ := h
  have h1 : -(half L - 1) ≤ z := by exact_mod_cast h1
  have h2 : z ≤ half L - 1 := by exact_mod_cast h2
  constructor <;> omega

/-- C126: for `|x| ≤ 1` the polynomial is always computed if the sum of the absolute values of the
coefficients is in the range.  `Nearest` with 38 digits on `i128` panics, see C07. -/
theorem C126_returns {cfg : Cfg} (hv : Valid cfg L P) (mode : RoundMode)
    (hm : mode = .nearest → ¬ (L = .i128 ∧ P = 38)) (x : FP L P) (hx : |value x| ≤ 1)
    (cs : List (FP L P)) (a : FP L P)
    (h : |value a| + (cs.map fun c => |value c|).sum ≤ maxValue L P) :
    ∃ r, horner cfg mode x cs a = .ok r := by
  induction cs generalizing a with
  | nil => exact ⟨a, rfl⟩
  | cons c cs ih =>
    rw [List.map_cons, List.sum_cons] at h
    have s0 : 0 ≤ (cs.map fun c => |value c|).sum :=
      List.sum_nonneg (by simp only [List.mem_map]; rintro _ ⟨y, -, rfl⟩; exact abs_nonneg _)
    have c0 := abs_nonneg (value c)
    have hb : |value a * value x| ≤ |value a| := by
      rw [abs_mul]
      exact mul_le_of_le_one_right (abs_nonneg _) hx
    have hr := abs_roundTo_le mode a hb
    obtain ⟨p, h1, h2⟩ := (C07_rmul_partial hv a x mode hm).1 (by
      have : |roundTo P mode (value a * value x)| ≤ maxValue L P := by linarith
      unfold roundTo at this ⊢
      exact representable_of_abs_le this)
    have hs : |value p + value c| ≤ |value a| + |value c| := by
      have := abs_add_le (value p) (value c)
      rw [h2] at this ⊢
      linarith
    obtain ⟨s, h3, h4⟩ := (C01_cadd_exact p c).1 (by
      have e : value p + value c = ((p.inner.toInt + c.inner.toInt : Int) : ℚ) / 10 ^ P := by
        unfold value; push_cast; ring
      have : |value p + value c| ≤ maxValue L P := by linarith
      rw [e] at this ⊢
      exact representable_of_abs_le this)
    obtain ⟨r, hr⟩ := ih s (by rw [h4]; linarith)
    refine ⟨r, ?_⟩
    unfold horner
    rw [h1, ok_bind, h3, ok_bind, hr]

example : ∃ r, horner debugCfg .nearest (⟨33⟩ : FP .i64 2) [⟨-250⟩, ⟨100⟩] ⟨300⟩ = .ok r := by
  refine C126_returns (by decide) .nearest (by decide) _ ?_ _ _ ?_
  · rw [value_eq _ 33 (by decide)]; norm_num [abs_le]
  · simp only [List.map_cons, List.map_nil, List.sum_cons, List.sum_nil]
    rw [value_eq _ 300 (by decide), value_eq _ (-250) (by decide), value_eq _ 100 (by decide)]
    norm_num [maxValue, rawMax, Layout.bits, abs_div]

end Fixnum
