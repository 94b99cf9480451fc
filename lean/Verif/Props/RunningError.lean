import Verif.Props.Ledger
import Verif.LiteralBasic

/-! # Property C92: error bounds for arbitrary expressions -/

namespace Fixnum

open Res Spec

variable {L : Layout} {P : Nat} {ε : Type}

namespace Spec

/-- The error of one rounding, in units: half a unit for `Nearest` where it is exact. -/
noncomputable def slackOf (exact : Bool) (m : RoundMode) : ℝ :=
  if exact = true ∧ m = .nearest then 1 / 2 else 1

end Spec

/-- `t` was evaluated with the operations of the crate, each node in a mode of its own, to the number
`x`, and `e` is the bound on the error obtained on the way from the numbers computed: sums add the
bounds, products `|a|·f + |b|·e + e·f`, quotients `(e + |a/b|·f) / (|b| - f)` as long as `f < |b|`,
roots `√e`; every rounding adds its own error.  `EPSILON` is `u`. -/
inductive Runs (cfg : Cfg) (u : ℝ) : Term L P → FP L P → ℝ → Prop
  | lit (x : FP L P) : Runs cfg u (.lit x) x 0
  | add {s t : Term L P} {a b r : FP L P} {e f : ℝ} (hs : Runs cfg u s a e) (ht : Runs cfg u t b f)
      (h : FP.cadd a b = .ok r) : Runs cfg u (.add s t) r (e + f)
  | sub {s t : Term L P} {a b r : FP L P} {e f : ℝ} (hs : Runs cfg u s a e) (ht : Runs cfg u t b f)
      (h : FP.csub a b = .ok r) : Runs cfg u (.sub s t) r (e + f)
  | mul {s t : Term L P} {a b r : FP L P} {e f : ℝ} (m : RoundMode) (hs : Runs cfg u s a e)
      (ht : Runs cfg u t b f) (h : FP.rmul cfg a b m = .ok r) :
      Runs cfg u (.mul s t) r (|(value a : ℝ)| * f + |(value b : ℝ)| * e + e * f +
        slackOf cfg.overflowChecks m * u)
  | div {s t : Term L P} {a b r : FP L P} {e f : ℝ} (m : RoundMode) (hs : Runs cfg u s a e)
      (ht : Runs cfg u t b f) (hf : f < |(value b : ℝ)|) (h : FP.rdiv cfg a b m = .ok r) :
      Runs cfg u (.div s t) r ((e + |(value a : ℝ) / value b| * f) / (|(value b : ℝ)| - f) +
        slackOf cfg.overflowChecks m * u)
  | sqrt {s : Term L P} {a r : FP L P} {e : ℝ} (m : RoundMode) (hs : Runs cfg u s a e)
      (h : FP.rsqrt cfg a m = .ok r) : Runs cfg u (.sqrt s) r (√e + slackOf true m * u)
  | half {s t : Term L P} {a b r : FP L P} {e f : ℝ} (m : RoundMode) (hs : Runs cfg u s a e)
      (ht : Runs cfg u t b f) (h : (FP.halfSum cfg a b m : Res ArithErr _) = .ok r) :
      Runs cfg u (.half s t) r ((e + f) / 2 + slackOf true m * u)

theorem slack_real {c : Bool} {m : RoundMode} {x y : ℚ}
    (h : |x - y| ≤ (if c = true ∧ m = .nearest then 1 / 2 else 1) * (1 / 10 ^ P)) :
    |(x : ℝ) - y| ≤ slackOf c m * (1 / 10 ^ P) := by
  have h' : ((|x - y| : ℚ) : ℝ) ≤
      (((if c = true ∧ m = .nearest then 1 / 2 else 1) * (1 / 10 ^ P) : ℚ) : ℝ) := by
    exact_mod_cast h
  rw [Rat.cast_abs, Rat.cast_sub] at h'
  refine h'.trans (le_of_eq ?_)
  unfold slackOf
  split <;> push_cast <;> ring

/-- Roots of numbers at a distance of `e` are at a distance of at most `√e`. -/
theorem sqrt_dist {a x e : ℝ} (h : |a - x| ≤ e) : |√a - √x| ≤ √e := by
  have gen : ∀ a x : ℝ, |a - x| ≤ e → √a - √x ≤ √e := by
    intro a x h
    rw [sub_le_iff_le_add]
    have h1 : a ≤ e + x := by have := (abs_le.1 h).2; linarith
    have he : 0 ≤ e := (abs_nonneg _).trans h
    calc √a ≤ √(e + max x 0) := Real.sqrt_le_sqrt (by linarith [le_max_left x 0])
      _ ≤ √e + √(max x 0) := by
        have h0 : 0 ≤ max x 0 := le_max_right _ _
        refine Real.sqrt_le_iff.2 ⟨by positivity, ?_⟩
        nlinarith [Real.sq_sqrt he, Real.sq_sqrt h0, Real.sqrt_nonneg e, Real.sqrt_nonneg (max x 0),
          mul_nonneg (Real.sqrt_nonneg e) (Real.sqrt_nonneg (max x 0))]
      _ = √e + √x := by
        rcases le_total 0 x with h0 | h0
        · rw [max_eq_left h0]
        · rw [max_eq_right h0, Real.sqrt_zero, Real.sqrt_eq_zero_of_nonpos h0]
  rw [abs_le]
  constructor
  · have := gen x a (by rwa [abs_sub_comm]); linarith
  · exact gen a x h

theorem mul_dist {a b x y e f : ℝ} (h : |a - x| ≤ e) (k : |b - y| ≤ f) :
    |a * b - x * y| ≤ |a| * f + |b| * e + e * f := by
  have he := (abs_nonneg _).trans h
  rw [show a * b - x * y = a * (b - y) + b * (a - x) - (a - x) * (b - y) by ring]
  refine (abs_sub _ _).trans (add_le_add ((abs_add_le _ _).trans (add_le_add ?_ ?_)) ?_)
  · rw [abs_mul]; exact mul_le_mul_of_nonneg_left k (abs_nonneg _)
  · rw [abs_mul]; exact mul_le_mul_of_nonneg_left h (abs_nonneg _)
  · rw [abs_mul]; exact mul_le_mul h k (abs_nonneg _) he

theorem div_dist {a b x y e f : ℝ} (h : |a - x| ≤ e) (k : |b - y| ≤ f) (hf : f < |b|) :
    |a / b - x / y| ≤ (e + |a / b| * f) / (|b| - f) := by
  have hy : |b| - f ≤ |y| := by
    have := abs_sub_abs_le_abs_sub b y
    linarith
  have hd : 0 < |b| - f := by linarith
  have hy0 : y ≠ 0 := abs_pos.1 (hd.trans_le hy)
  have hb0 : b ≠ 0 := abs_pos.1 (((abs_nonneg _).trans k).trans_lt hf)
  have hid : a / b - x / y = ((a - x) - a / b * (b - y)) / y := by
    field_simp
    ring
  rw [hid, abs_div]
  have hn : |(a - x) - a / b * (b - y)| ≤ e + |a / b| * f := by
    refine (abs_sub _ _).trans (add_le_add h ?_)
    rw [abs_mul]
    exact mul_le_mul_of_nonneg_left k (abs_nonneg _)
  exact div_le_div₀ ((abs_nonneg _).trans hn) hn hd hy

/-- C92: the number computed for an expression differs from the real number it denotes by at most the
bound; every build, every choice of modes. -/
theorem C92_running_error {cfg : Cfg} (hv : Valid cfg L P) (t : Term L P) (x : FP L P) (e : ℝ)
    (h : Runs cfg ((value (FP.epsilon : FP L P) : ℚ) : ℝ) t x e) : |(value x : ℝ) - t.exact| ≤ e := by
  have hu : ((value (FP.epsilon : FP L P) : ℚ) : ℝ) = 1 / 10 ^ P := by
    rw [C52_epsilon.1]; push_cast; rfl
  rw [hu] at h
  induction h with
  | lit x => simp [Term.exact]
  | @add s t a b r e f hs ht h is it =>
    have := C01_cadd_ok _ _ _ h
    rw [this, Term.exact]
    push_cast
    rw [show (value a : ℝ) + value b - (s.exact + t.exact) =
      (value a - s.exact) + (value b - t.exact) by ring]
    exact (abs_add_le _ _).trans (add_le_add is it)
  | @sub s t a b r e f hs ht h is it =>
    have := C02_csub_ok _ _ _ h
    rw [this, Term.exact]
    push_cast
    rw [show (value a : ℝ) - value b - (s.exact - t.exact) =
      (value a - s.exact) - (value b - t.exact) by ring]
    exact (abs_sub _ _).trans (add_le_add is it)
  | @mul s t a b r e f m hs ht h is it =>
    have h1 : |(value r : ℝ) - (value a * value b : ℚ)| ≤ slackOf cfg.overflowChecks m * (1 / 10 ^ P) :=
      slack_real (step_slack hv (.mul b m) a r h)
    rw [Term.exact]
    push_cast at h1
    have h2 := mul_dist is it
    rw [show (value r : ℝ) - s.exact * t.exact =
      (value r - value a * value b) + (value a * value b - s.exact * t.exact) by ring]
    exact (abs_add_le _ _).trans (by linarith)
  | @div s t a b r e f m hs ht hf h is it =>
    have h1 : |(value r : ℝ) - (value a / value b : ℚ)| ≤ slackOf cfg.overflowChecks m * (1 / 10 ^ P) :=
      slack_real (step_slack hv (.div b m) a r h)
    rw [Term.exact]
    push_cast at h1
    have h2 := div_dist is it hf
    rw [show (value r : ℝ) - s.exact / t.exact =
      (value r - value a / value b) + (value a / value b - s.exact / t.exact) by ring]
    exact (abs_add_le _ _).trans (by linarith)
  | @sqrt s a r e m hs h is =>
    have ha : 0 ≤ value a := by
      by_contra hn
      have := (C22_rsqrt_domain hv a m).2 (not_le.1 hn)
      rw [h] at this
      cases this
    obtain ⟨r', h', hr⟩ := C22_rsqrt hv a ha m
    rw [h] at h'
    cases h'
    have h1 : |(value r : ℝ) - √(value a : ℝ)| ≤ slackOf true m * (1 / 10 ^ P) := by
      have hr := hr.2
      unfold slackOf
      cases m
      case nearest =>
        simp only [and_self, if_true] at hr ⊢
        refine hr.le.trans (le_of_eq ?_); ring
      all_goals
        simp only [reduceCtorEq, and_false, if_false, one_mul] at hr ⊢
        rw [abs_le]; constructor <;> linarith
    rw [Term.exact]
    have h2 := sqrt_dist is
    rw [show (value r : ℝ) - √s.exact = (value r - √(value a : ℝ)) + (√(value a : ℝ) - √s.exact) by ring]
    exact (abs_add_le _ _).trans (by linarith)
  | @half s t a b r e f m hs ht h is it =>
    have h1 : |(value r : ℝ) - ((value a + value b) / 2 : ℚ)| ≤ slackOf true m * (1 / 10 ^ P) := by
      apply slack_real
      have := step_slack hv (.half b m) a r h
      simpa [Step.spec, Step.slack] using this
    rw [Term.exact]
    push_cast at h1
    have h2 : |((value a : ℝ) + value b) / 2 - (s.exact + t.exact) / 2| ≤ (e + f) / 2 := by
      rw [show ((value a : ℝ) + value b) / 2 - (s.exact + t.exact) / 2 =
        (value a - s.exact) / 2 + (value b - t.exact) / 2 by ring]
      refine (abs_add_le _ _).trans ?_
      rw [abs_div, abs_div, abs_of_pos (by norm_num : (0 : ℝ) < 2)]
      linarith
    rw [show (value r : ℝ) - (s.exact + t.exact) / 2 =
      (value r - (value a + value b) / 2) + ((value a + value b) / 2 - (s.exact + t.exact) / 2) by ring]
    exact (abs_add_le _ _).trans (by linarith)

-- `√2`, computed with two digits, times three
example := C92_running_error (cfg := debugCfg) (L := .i64) (P := 2) (by decide)
  (.mul (.sqrt (.lit ⟨200⟩)) (.lit ⟨300⟩)) ⟨423⟩ _
  (.mul (a := ⟨141⟩) (b := ⟨300⟩) .nearest (.sqrt .nearest (.lit _) (by decide +kernel)) (.lit _)
    (by decide +kernel))

/-- A client of the crate: evaluate an expression, all roundings in one mode; the first error ends the
evaluation. -/
def Term.run (cfg : Cfg) (m : RoundMode) : Term L P → Res ArithErr (FP L P)
  | .lit x => .ok x
  | .add s t => do FP.cadd (← s.run cfg m) (← t.run cfg m)
  | .sub s t => do FP.csub (← s.run cfg m) (← t.run cfg m)
  | .mul s t => do FP.rmul cfg (← s.run cfg m) (← t.run cfg m) m
  | .div s t => do FP.rdiv cfg (← s.run cfg m) (← t.run cfg m) m
  | .sqrt s => do FP.rsqrt cfg (← s.run cfg m) m
  | .half s t => do FP.halfSum cfg (← s.run cfg m) (← t.run cfg m) m

/-- All divisors are given numbers. -/
def Term.fixedDivisors : Term L P → Prop
  | .lit _ => True
  | .div s t => s.fixedDivisors ∧ ∃ x, t = .lit x
  | .add s t | .sub s t | .mul s t | .half s t => s.fixedDivisors ∧ t.fixedDivisors
  | .sqrt s => s.fixedDivisors

/-- C92: every successful evaluation of an expression whose divisors are given numbers has a bound;
with `C92_running_error` it applies to the result. -/
theorem C92_run {cfg : Cfg} (hv : Valid cfg L P) (u : ℝ) (m : RoundMode) (t : Term L P)
    (ht : t.fixedDivisors) (x : FP L P) (h : t.run cfg m = .ok x) : ∃ e, Runs cfg u t x e := by
  induction t generalizing x with
  | lit y => cases h; exact ⟨_, .lit _⟩
  | add s t is it =>
    obtain ⟨a, ha, h⟩ := bind_ok_inv h
    obtain ⟨b, hb, h⟩ := bind_ok_inv h
    obtain ⟨e, he⟩ := is ht.1 a ha
    obtain ⟨f, hf⟩ := it ht.2 b hb
    exact ⟨_, .add he hf h⟩
  | sub s t is it =>
    obtain ⟨a, ha, h⟩ := bind_ok_inv h
    obtain ⟨b, hb, h⟩ := bind_ok_inv h
    obtain ⟨e, he⟩ := is ht.1 a ha
    obtain ⟨f, hf⟩ := it ht.2 b hb
    exact ⟨_, .sub he hf h⟩
  | mul s t is it =>
    obtain ⟨a, ha, h⟩ := bind_ok_inv h
    obtain ⟨b, hb, h⟩ := bind_ok_inv h
    obtain ⟨e, he⟩ := is ht.1 a ha
    obtain ⟨f, hf⟩ := it ht.2 b hb
    exact ⟨_, .mul m he hf h⟩
  | div s t is it =>
    obtain ⟨a, ha, h⟩ := bind_ok_inv h
    obtain ⟨b, hb, h⟩ := bind_ok_inv h
    obtain ⟨e, he⟩ := is ht.1 a ha
    obtain ⟨y, rfl⟩ := ht.2
    cases hb
    refine ⟨_, .div m he (.lit _) ?_ h⟩
    have := rdiv_ok_ne_zero hv h
    rw [abs_pos]
    exact_mod_cast this
  | sqrt s is =>
    obtain ⟨a, ha, h⟩ := bind_ok_inv h
    obtain ⟨e, he⟩ := is ht a ha
    exact ⟨_, .sqrt m he h⟩
  | half s t is it =>
    obtain ⟨a, ha, h⟩ := bind_ok_inv h
    obtain ⟨b, hb, h⟩ := bind_ok_inv h
    obtain ⟨e, he⟩ := is ht.1 a ha
    obtain ⟨f, hf⟩ := it ht.2 b hb
    exact ⟨_, .half m he hf h⟩

/-- `√2.00 · (1.00 / 3.00)`, two decimals: `1.41 · 0.33 = 0.47` to nearest. -/
def sampleTerm : Term .i64 2 := .mul (.sqrt (.lit ⟨200⟩)) (.div (.lit ⟨100⟩) (.lit ⟨300⟩))

example : sampleTerm.run debugCfg .nearest = .ok ⟨47⟩ := by decide +kernel
example : sampleTerm.fixedDivisors := ⟨trivial, trivial, _, rfl⟩

/-- Its bound: `1.41·0.005 + 0.33·0.005 + 0.000025 + 0.005`, less than two units. -/
example : |((value (⟨47⟩ : FP .i64 2) : ℚ) : ℝ) - sampleTerm.exact| < 0.014 := by
  have hv : Valid debugCfg .i64 2 := by decide +kernel
  have e1 : value (⟨141⟩ : FP .i64 2) = 141 / 100 := by decide +kernel
  have e2 : value (⟨33⟩ : FP .i64 2) = 33 / 100 := by decide +kernel
  have e3 : value (⟨300⟩ : FP .i64 2) = 3 := by decide +kernel
  have h := C92_running_error hv sampleTerm ⟨47⟩ _
    (.mul (a := ⟨141⟩) (b := ⟨33⟩) .nearest (.sqrt .nearest (.lit _) (by decide +kernel))
      (.div .nearest (.lit _) (.lit _) (by rw [e3]; norm_num) (by decide +kernel)) (by decide +kernel))
  refine h.trans_lt ?_
  rw [C52_epsilon.1, e1, e2, e3]
  norm_num [slackOf, debugCfg, abs_of_pos]

end Fixnum
