import Verif.Props.Imperative
import Verif.Props.Printing
import Mathlib.Algebra.Order.Archimedean.Real.Basic

/-!
# C101: the operations as functions on rational numbers

For every operation a function on rational numbers that says what the call gives, for all operands
and every build, the exceptional cases included.  Programs (C100) can be run on rational numbers
instead of machine words.
-/

namespace Fixnum

open Res Spec

variable {L L' : Layout} {P : Nat} {ε : Type}

/-! ## The functions

`L` and `P` are the type, `checks` says whether the build has overflow checks.  Nothing here refers
to machine words except the range of the type. -/

namespace Q

open Classical in
/-- `q`, or `Overflow` if the type does not have it. -/
noncomputable def fit (L : Layout) (P : Nat) (q : ℚ) : Res ArithErr ℚ :=
  if Representable L P q then .ok q else .err .overflow

open Classical in
/-- `q`, or a panic if the type does not have it. -/
noncomputable def fitPanic (L : Layout) (P : Nat) (q : ℚ) : Res ArithErr ℚ :=
  if Representable L P q then .ok q else .panic

/-- Rounding towards zero and away from zero, to a multiple of `10^-P`. -/
def trunc (P : Nat) (q : ℚ) : ℚ := roundTo P (if 0 ≤ q then .floor else .ceil) q
def away (P : Nat) (q : ℚ) : ℚ := roundTo P (if 0 ≤ q then .ceil else .floor) q

/-- The `Nearest` test of a product doubles the remainder, which is in units of `10^-2P`. -/
def MulDoubles (L : Layout) (P : Nat) (q : ℚ) : Prop :=
  Representable L P (trunc P q) →
    minValue L P ≤ 2 * (q - trunc P q) * 10 ^ P ∧ 2 * (q - trunc P q) * 10 ^ P ≤ maxValue L P

open Classical in
/-- Product. -/
noncomputable def mul (L : Layout) (P : Nat) (checks : Bool) (a b : ℚ) (mode : RoundMode) :
    Res ArithErr ℚ :=
  if mode = .nearest ∧ ¬ MulDoubles L P (a * b) then
    if checks then .panic else fit L P (roundTo P (if 0 ≤ a * b then .nearest else .ceil) (a * b))
  else fit L P (roundTo P mode (a * b))

open Classical in
/-- Saturating product. -/
noncomputable def satMul (L : Layout) (P : Nat) (checks : Bool) (a b : ℚ) (mode : RoundMode) :
    Res ArithErr ℚ :=
  if mode = .nearest ∧ ¬ MulDoubles L P (a * b) then
    if checks then .panic
    else .ok (clamp L P (roundTo P (if 0 ≤ a * b then .nearest else .ceil) (a * b)))
  else .ok (clamp L P (roundTo P mode (a * b)))

/-- The `Nearest` test of the quotient `q` by `b` doubles the remainder and takes `|b|`. -/
def DivDoubles (L : Layout) (P : Nat) (q b : ℚ) : Prop :=
  trunc P q ≠ q → Representable L P (trunc P q) →
    2 * |q - trunc P q| * |b| * 10 ^ P ≤ maxValue L P ∧ b ≠ minValue L P

open Classical in
/-- Quotient. -/
noncomputable def div (L : Layout) (P : Nat) (checks : Bool) (a b : ℚ) (mode : RoundMode) :
    Res ArithErr ℚ :=
  if b = 0 then .err .divisionByZero
  else if mode = .nearest ∧ ¬ DivDoubles L P (a / b) b then
    if checks then .panic
    else fit L P (if b = minValue L P then away P (a / b) else trunc P (a / b))
  else fit L P (roundTo P mode (a / b))

/-- The same for the quotient `q` by the integer `n`. -/
def DivIntDoubles (L : Layout) (P : Nat) (q : ℚ) (n : Int) : Prop :=
  trunc P q ≠ q → 2 * |q - trunc P q| * |(n : ℚ)| ≤ maxValue L P ∧ n ≠ rawMin L

open Classical in
/-- Quotient by an integer. -/
noncomputable def divInt (L : Layout) (P : Nat) (checks : Bool) (a : ℚ) (n : Int)
    (mode : RoundMode) : Res ArithErr ℚ :=
  if n = 0 then .err .divisionByZero
  else if a = minValue L P ∧ n = -1 then .panic
  else if mode = .nearest ∧ ¬ DivIntDoubles L P (a / n) n then
    if checks then .panic
    else .ok (if n = rawMin L then away P (a / n) else trunc P (a / n))
  else fit L P (roundTo P mode (a / n))

open Classical in
/-- Quotient of an integer by a number. -/
noncomputable def intDiv (L : Layout) (P : Nat) (checks : Bool) (n : Int) (b : ℚ)
    (mode : RoundMode) : Res ArithErr ℚ :=
  if Representable L P (n : ℚ) then div L P checks n b mode else .err .overflow

/-- Half the sum; `Nearest` rounds up if both operands have the same sign. -/
def half (P : Nat) (a b : ℚ) (mode : RoundMode) : ℚ :=
  roundTo P (if mode = .nearest ∧ (0 < a ↔ 0 < b) ∧ (a < 0 ↔ b < 0) then .ceil else mode) ((a + b) / 2)

/-- Root. -/
noncomputable def sqrt (P : Nat) (a : ℚ) (mode : RoundMode) : Res ArithErr ℚ :=
  if a < 0 then .err .domainViolation
  else .ok ((match mode with
    | .floor => ⌊√(a : ℝ) * 10 ^ P⌋
    | .ceil => ⌈√(a : ℝ) * 10 ^ P⌉
    | .nearest => ⌊√(a : ℝ) * 10 ^ P + 1 / 2⌋ : Int) / 10 ^ P)

/-- The next power of ten. -/
noncomputable def nextPower (L : Layout) (P : Nat) (a : ℚ) : Res ArithErr ℚ :=
  let r : ℚ := 10 ^ sInf {k : Nat | |a| ≤ 10 ^ k / 10 ^ P} / 10 ^ P
  fit L P (if a < 0 then -r else r)

/-- Rounding towards zero to a multiple of `p`. -/
def truncTo (a p : ℚ) : ℚ :=
  if p = 0 then a else (Spec.round (if 0 ≤ a / p then .floor else .ceil) (a / p) : ℚ) * p

open Classical in
/-- The integer part. -/
noncomputable def integral (L : Layout) (P : Nat) (checks : Bool) (a : ℚ) (mode : RoundMode) :
    Res ArithErr Int :=
  let t := Spec.round (if 0 ≤ a then .floor else .ceil) a
  if a = minValue L P ∨ (mode = .nearest ∧ maxValue L P < 2 * |a - t|) then
    if checks then .panic else .ok t
  else .ok (Spec.round mode a)

/-- `floor`, `ceil` and `round`. -/
noncomputable def whole (L : Layout) (P : Nat) (checks : Bool) (a : ℚ) (mode : RoundMode) :
    Res ArithErr ℚ := do
  let i ← integral L P checks a mode
  fitPanic L P i

/-- A machine integer: the representative modulo `2^w` in the range of the type. -/
def wrap (L : Layout) (z : Int) : Int := Int.bmod z (2 ^ L.bits)

end Q

/-! ## Proofs -/

/-- What the outcome of a call denotes. -/
def denote (r : Res ε (FP L P)) : Res ε ℚ := r.mapOk value

theorem denote_exact {r : Res ArithErr (FP L P)} {q : ℚ} (h : ExactOr .overflow r q) :
    denote r = Q.fit L P q := by
  unfold Q.fit
  by_cases hq : Representable L P q
  · obtain ⟨c, hc, e⟩ := h.1 hq
    rw [if_pos hq, hc, ← e]; rfl
  · rw [if_neg hq, h.2 hq]; rfl

theorem denote_exact_panic {r : Res ArithErr (FP L P)} {q : ℚ} (h : ExactOrPanic r q) :
    denote r = Q.fitPanic L P q := by
  unfold Q.fitPanic
  by_cases hq : Representable L P q
  · obtain ⟨c, hc, e⟩ := h.1 hq
    rw [if_pos hq, hc, ← e]; rfl
  · rw [if_neg hq, h.2 hq]; rfl

theorem denote_ok {r : Res ε (FP L P)} {q : ℚ} (h : ∃ x, r = .ok x ∧ value x = q) :
    denote r = .ok q := by
  obtain ⟨x, rfl, rfl⟩ := h; rfl

theorem round_trunc_div (n : Int) {d : Int} (hd : d ≠ 0) :
    Spec.round (if 0 ≤ (n : ℚ) / d then .floor else .ceil) ((n : ℚ) / d) = n.tdiv d := by
  have hf := round_div .floor n hd
  have hc := round_div .ceil n hd
  by_cases hx : n = 0
  · rw [hx]; simp [Spec.round]
  · have hsg := div_nonneg_sign hx hd
    split <;> rename_i h1
    · rw [hf]; unfold roundDiv
      rw [if_neg, add_zero]
      rintro ⟨_, h2⟩
      have := hsg.1 h1
      omega
    · rw [hc]; unfold roundDiv
      rw [if_neg, add_zero]
      rintro ⟨_, h2⟩; exact h1 (hsg.2 h2)

theorem trunc_div {q : ℚ} {n d : Int} (hd : d ≠ 0) (h : q * 10 ^ P = (n : ℚ) / d) :
    Q.trunc P q = ((n.tdiv d : Int) : ℚ) / 10 ^ P ∧
    q - Q.trunc P q = ((n.tmod d : Int) : ℚ) / d / 10 ^ P := by
  have hp := ten_pow_pos P
  have hd' : (d : ℚ) ≠ 0 := by exact_mod_cast hd
  have e : Q.trunc P q = ((n.tdiv d : Int) : ℚ) / 10 ^ P := by
    unfold Q.trunc roundTo
    rw [← round_trunc_div n hd, ← h]
    congr 3
    have : 0 ≤ q ↔ 0 ≤ q * 10 ^ P := by
      constructor
      · intro h; positivity
      · intro h; exact nonneg_of_mul_nonneg_left h hp
    simp only [this]
  refine ⟨e, ?_⟩
  have h2 : q = (n : ℚ) / d / 10 ^ P := by rw [eq_div_iff hp.ne', h]
  rw [e, h2, ← loss_eq]
  push_cast
  field_simp

theorem mulDoubles_iff (a b : FP L P) :
    Q.MulDoubles L P (value a * value b) ↔ RmulSafe L P (a.inner.toInt * b.inner.toInt) := by
  have hp := ten_pow_pos P
  obtain ⟨h1, h2⟩ := trunc_div (ten_pow_int_ne P) (mul_value_scaled a b)
  unfold Q.MulDoubles RmulSafe
  rw [h2, h1, representable_iff, fits_iff]
  set m := (a.inner.toInt * b.inner.toInt).tmod (10 ^ P)
  have e : 2 * ((m : ℚ) / ((10 ^ P : Int) : ℚ) / 10 ^ P) * 10 ^ P = ((2 * m : Int) : ℚ) / 10 ^ P := by
    push_cast; field_simp
  rw [e]
  unfold minValue maxValue
  rw [div_le_div_iff_of_pos_right hp, div_le_div_iff_of_pos_right hp, Int.cast_le, Int.cast_le]

theorem trunc_ne_iff {q : ℚ} {n d : Int} (hd : d ≠ 0) (h : q * 10 ^ P = (n : ℚ) / d) :
    Q.trunc P q ≠ q ↔ n.tmod d ≠ 0 := by
  have hp := ten_pow_ne P
  have hd' : (d : ℚ) ≠ 0 := by exact_mod_cast hd
  obtain ⟨_, h2⟩ := trunc_div hd h
  rw [not_iff_not, eq_comm, ← sub_eq_zero, h2, div_eq_zero_iff, div_eq_zero_iff]
  constructor
  · rintro ((h | h) | h)
    · exact_mod_cast h
    · exact absurd h hd'
    · exact absurd h hp
  · intro h; rw [h]; simp

theorem divDoubles_iff (a b : FP L P) (hb : value b ≠ 0) :
    Q.DivDoubles L P (value a / value b) (value b) ↔
      NearestSafe L (a.inner.toInt * 10 ^ P) b.inner.toInt := by
  have hp := ten_pow_pos P
  rw [Ne, value_eq_zero_iff] at hb
  have hb' : (b.inner.toInt : ℚ) ≠ 0 := by exact_mod_cast hb
  obtain ⟨h1, h2⟩ := trunc_div hb (div_value_scaled a b hb)
  unfold Q.DivDoubles NearestSafe
  rw [trunc_ne_iff hb (div_value_scaled a b hb), h2, h1, representable_iff, fits_iff,
    show value b ≠ minValue L P ↔ b.inner.toInt ≠ rawMin L from not_congr (value_min_iff b)]
  set m := (a.inner.toInt * 10 ^ P).tmod b.inner.toInt
  have e : 2 * |(m : ℚ) / (b.inner.toInt : ℚ) / 10 ^ P| * |value b| * 10 ^ P =
      ((2 * |m| : Int) : ℚ) / 10 ^ P := by
    unfold value
    rw [abs_div, abs_div, abs_div, abs_of_pos hp]
    have : |(b.inner.toInt : ℚ)| ≠ 0 := abs_ne_zero.2 hb'
    push_cast; field_simp
  rw [e]
  unfold maxValue
  rw [div_le_div_iff_of_pos_right hp, Int.cast_le]

theorem divInt_scaled (a : FP L P) (n : Int) :
    value a / n * 10 ^ P = (a.inner.toInt : ℚ) / n := by
  have := ten_pow_ne P
  unfold value; field_simp

theorem divIntDoubles_iff (a : FP L P) (n : Int) (hn : n ≠ 0) :
    Q.DivIntDoubles L P (value a / n) n ↔ IntNearestSafe L.bits a.inner.toInt n := by
  have hp := ten_pow_pos P
  have hn' : (n : ℚ) ≠ 0 := by exact_mod_cast hn
  obtain ⟨h1, h2⟩ := trunc_div hn (divInt_scaled a n)
  unfold Q.DivIntDoubles IntNearestSafe
  rw [trunc_ne_iff hn (divInt_scaled a n), h2]
  set m := a.inner.toInt.tmod n
  have e : 2 * |(m : ℚ) / (n : ℚ) / 10 ^ P| * |(n : ℚ)| = ((2 * |m| : Int) : ℚ) / 10 ^ P := by
    rw [abs_div, abs_div, abs_of_pos hp]
    have : |(n : ℚ)| ≠ 0 := abs_ne_zero.2 hn'
    push_cast; field_simp
  rw [e]
  unfold maxValue
  rw [div_le_div_iff_of_pos_right hp, Int.cast_le]
  exact Iff.rfl

/-! ## The operations -/

/-- C101: the product. -/
theorem C101_rmul {cfg : Cfg} (hv : Valid cfg L P) (a b : FP L P) (mode : RoundMode) :
    denote (FP.rmul cfg a b mode) = Q.mul L P cfg.overflowChecks (value a) (value b) mode := by
  unfold Q.mul
  rw [mulDoubles_iff]
  by_cases h : mode = .nearest ∧ ¬ RmulSafe L P (a.inner.toInt * b.inner.toInt)
  · rw [if_pos h]
    obtain ⟨rfl, hs⟩ := h
    cases hc : cfg.overflowChecks with
    | true => rw [(C07_rmul_panics_iff hv hc a b).2 hs]; rfl
    | false => exact denote_exact (C07_rmul_wrapped hv hc a b hs)
  · rw [if_neg h]
    exact denote_exact (C07_rmul_remainder_partial hv a b mode fun hm => not_not.1 fun hs => h ⟨hm, hs⟩)

example := C101_rmul (cfg := debugCfg) (by decide) (⟨1500000000⟩ : FP .i64 9) ⟨-7⟩ .nearest

/-- C101: the saturating product. -/
theorem C101_saturating_rmul {cfg : Cfg} (hv : Valid cfg L P) (a b : FP L P) (mode : RoundMode) :
    denote (FP.saturatingRmul cfg a b mode) =
      Q.satMul L P cfg.overflowChecks (value a) (value b) mode := by
  unfold Q.satMul
  rw [mulDoubles_iff]
  by_cases h : mode = .nearest ∧ ¬ RmulSafe L P (a.inner.toInt * b.inner.toInt)
  · rw [if_pos h]
    obtain ⟨rfl, hs⟩ := h
    cases hc : cfg.overflowChecks with
    | true => rw [(C09_saturating_rmul_panics_iff hv hc a b).2 hs]; rfl
    | false => exact denote_ok (C09_saturating_rmul_wrapped hv hc a b hs)
  · rw [if_neg h]
    exact denote_ok
      (C09_saturating_rmul_partial hv a b mode fun hm => not_not.1 fun hs => h ⟨hm, hs⟩)

example := C101_saturating_rmul (cfg := debugCfg) (by decide) (⟨1500000000⟩ : FP .i64 9) FP.max
  .nearest

/-- C101: the quotient. -/
theorem C101_rdiv {cfg : Cfg} (hv : Valid cfg L P) (a b : FP L P) (mode : RoundMode) :
    denote (FP.rdiv cfg a b mode) = Q.div L P cfg.overflowChecks (value a) (value b) mode := by
  unfold Q.div
  by_cases hb : value b = 0
  · rw [if_pos hb, (C10_rdiv_zero_iff hv a b mode).2 hb]; rfl
  rw [if_neg hb, divDoubles_iff a b hb]
  by_cases h : mode = .nearest ∧ ¬ NearestSafe L (a.inner.toInt * 10 ^ P) b.inner.toInt
  · rw [if_pos h]
    obtain ⟨rfl, hs⟩ := h
    cases hc : cfg.overflowChecks with
    | true => rw [(C11_rdiv_nearest_panics_iff hv hc a b hb).2 hs]; rfl
    | false => exact denote_exact (C11_rdiv_nearest_wrapped hv hc a b hb hs)
  · rw [if_neg h]
    by_cases hm : mode = .nearest
    · subst hm
      exact denote_exact (C11_rdiv_nearest_partial hv a b hb (not_not.1 fun hs => h ⟨rfl, hs⟩))
    · exact denote_exact (C10_rdiv_directed hv a b mode hm hb)

example := C101_rdiv (cfg := debugCfg) (by decide) (⟨1500000000⟩ : FP .i64 9) ⟨-7⟩ .nearest

/-- C101: the reciprocal. -/
theorem C101_recip {cfg : Cfg} (hv : Valid cfg L P) (a : FP L P) (mode : RoundMode) :
    denote (FP.recip cfg a mode) = Q.div L P cfg.overflowChecks 1 (value a) mode := by
  obtain ⟨o, h1, h2⟩ := C15_recip_is_rdiv hv a mode
  rw [h2, C101_rdiv hv, h1]

example := C101_recip (cfg := debugCfg) (by decide) (⟨1500000000⟩ : FP .i64 9) .nearest

/-- C101: the quotient of an integer by a number. -/
theorem C101_int_rdiv {cfg : Cfg} (hv : Valid cfg L P) (n : BitVec L.bits) (a : FP L P)
    (mode : RoundMode) :
    denote (FP.intRdiv cfg n a mode) =
      Q.intDiv L P cfg.overflowChecks n.toInt (value a) mode := by
  unfold Q.intDiv
  by_cases h : Representable L P (n.toInt : ℚ)
  · obtain ⟨l, h1, _, h2⟩ := intRdiv_eq hv n a mode h
    rw [if_pos h, h2, C101_rdiv hv, h1]
  · rw [if_neg h, C13_intRdiv_overflow hv n a mode h]; rfl

example := C101_int_rdiv (cfg := debugCfg) (by decide) (-7) (⟨1500000000⟩ : FP .i64 9) .nearest

/-- C101: the quotient by an integer.  (No hypothesis on the precision.) -/
theorem C101_rdiv_int (cfg : Cfg) (a : FP L P) (n : BitVec L.bits) (mode : RoundMode) :
    denote (FP.rdivInt cfg a n mode) =
      Q.divInt L P cfg.overflowChecks (value a) n.toInt mode := by
  unfold Q.divInt
  by_cases hn : n.toInt = 0
  · rw [if_pos hn, (C12_rdivInt_zero_iff cfg a n mode).2 hn]; rfl
  rw [if_neg hn]
  by_cases hm : value a = minValue L P ∧ n.toInt = -1
  · rw [if_pos hm]
    obtain rfl : a = FP.min := value_inj (hm.1.trans C52_bounds_value.1.symm)
    have e : n = BitVec.ofInt L.bits (-1) := by
      apply toInt_inj'
      rw [hm.2, toInt_ofInt_of_fits (bits_pos L) (by rw [fits_half]; have := half_pos L; omega)]
    rw [e, C12_rdivInt_min_false cfg mode]; rfl
  rw [if_neg hm, divIntDoubles_iff a _ hn]
  by_cases h : mode = .nearest ∧ ¬ IntNearestSafe L.bits a.inner.toInt n.toInt
  · rw [if_pos h]
    obtain ⟨rfl, hs⟩ := h
    cases hc : cfg.overflowChecks with
    | true => rw [(C12_rdivInt_panics_iff cfg hc a n .nearest hn).2 (.inr ⟨rfl, hs⟩)]; rfl
    | false => exact denote_ok (C12_rdivInt_wrapped cfg hc a n hn hs)
  · rw [if_neg h]
    refine denote_exact (C12_rdivInt_partial cfg a n mode hn
      (fun h => hm ⟨(value_min_iff a).2 h.1, h.2⟩) fun h1 h2 => ?_)
    exact (not_not.1 fun hs => h ⟨h1, hs⟩ : IntNearestSafe _ _ _) h2

example := C101_rdiv_int debugCfg (FP.min : FP .i16 2) (-1) .floor

/-- C101: half the sum. -/
theorem C101_half_sum (cfg : Cfg) (a b : FP L P) (mode : RoundMode) :
    denote (FP.halfSum cfg a b mode : Res ε _) = .ok (Q.half P (value a) (value b) mode) := by
  obtain ⟨r, h1, h2⟩ := halfSum_value (ε := ε) cfg a b mode
  refine denote_ok ⟨r, h1, ?_⟩
  rw [h2]
  unfold Q.half halfMode
  have hs : ∀ x : FP L P, (0 < value x ↔ 0 < x.inner.toInt) ∧ (value x < 0 ↔ x.inner.toInt < 0) := by
    intro x
    have hp := ten_pow_pos P
    unfold value
    rw [lt_div_iff₀ hp, div_lt_iff₀ hp, zero_mul]
    exact ⟨by exact_mod_cast Iff.rfl, by exact_mod_cast Iff.rfl⟩
  have e : a.inner.toInt.sign = b.inner.toInt.sign ↔
      (0 < value a ↔ 0 < value b) ∧ (value a < 0 ↔ value b < 0) := by
    rw [(hs a).1, (hs b).1, (hs a).2, (hs b).2]
    generalize a.inner.toInt = x
    generalize b.inner.toInt = y
    rcases lt_trichotomy x 0 with h | h | h <;> rcases lt_trichotomy y 0 with k | k | k <;>
      simp [Int.sign_eq_one_of_pos, Int.sign_eq_neg_one_of_neg, h, k, not_lt.2 h.le, not_lt.2 k.le]
  simp only [e]

example := C101_half_sum (ε := Unit) debugCfg (⟨5⟩ : FP .i64 1) ⟨-2⟩ .nearest

/-- C101: the root. -/
theorem C101_rsqrt {cfg : Cfg} (hv : Valid cfg L P) (a : FP L P) (mode : RoundMode) :
    denote (FP.rsqrt cfg a mode) = Q.sqrt P (value a) mode := by
  unfold Q.sqrt
  by_cases h : value a < 0
  · rw [if_pos h, (C22_rsqrt_domain hv a mode).2 h]; rfl
  rw [if_neg h]
  obtain ⟨s, h1, ⟨n, hn⟩, h2⟩ := C22_rsqrt hv a (not_lt.1 h) mode
  refine denote_ok ⟨s, h1, ?_⟩
  have hp : (0 : ℝ) < 10 ^ P := by positivity
  rw [hn] at h2 ⊢
  congr 2
  symm
  generalize √((value a : ℚ) : ℝ) = t at h2 ⊢
  cases mode <;> dsimp only at h2 ⊢ <;> push_cast at h2
  · rw [← sub_div, div_lt_iff₀ hp, le_div_iff₀ hp] at h2
    rw [Int.ceil_eq_iff]; exact h2
  · rw [abs_lt, lt_div_iff₀ hp, neg_lt, neg_sub, lt_div_iff₀ hp, sub_mul, sub_mul,
      div_mul_cancel₀ _ hp.ne'] at h2
    rw [Int.floor_eq_iff]; constructor <;> linarith [h2.1, h2.2]
  · rw [← add_div, div_le_iff₀ hp, lt_div_iff₀ hp] at h2
    rw [Int.floor_eq_iff]; exact h2

example := C101_rsqrt (cfg := debugCfg) (by decide) (⟨2000000000⟩ : FP .i64 9) .nearest

/-- C101: the next power of ten. -/
theorem C101_next_power (a : FP L P) :
    denote (FP.nextPowerOfTen a) = Q.nextPower L P (value a) := by
  have hp := ten_pow_pos P
  have key : ∀ q : ℚ, IsNextPowerOfTen P q (10 ^ sInf {k : Nat | q ≤ 10 ^ k / 10 ^ P} / 10 ^ P) := by
    intro q
    obtain ⟨r, ⟨⟨k, e⟩, h1, h2⟩, _⟩ := C21_next_exists P q
    have hmem := Nat.sInf_mem (s := {k : Nat | q ≤ 10 ^ k / 10 ^ P}) ⟨k, by rw [e] at h1; exact h1⟩
    refine ⟨⟨_, rfl⟩, hmem, fun j hj => ?_⟩
    rw [div_le_div_iff_of_pos_right hp]
    exact pow_le_pow_right₀ (by norm_num) (Nat.sInf_le hj)
  unfold Q.nextPower
  dsimp only
  by_cases h : value a < 0
  · rw [if_pos h, abs_of_neg h]
    exact denote_exact (C21_next_power_neg a h _ (key _))
  · rw [if_neg h, abs_of_nonneg (not_lt.1 h)]
    exact denote_exact (C21_next_power_nonneg a (not_lt.1 h) _ (key _))

example := C101_next_power (⟨-125⟩ : FP .i16 2)

/-- C101: rounding towards zero to a multiple. -/
theorem C101_round_towards_zero_by (a p : FP L P) :
    value (FP.roundTowardsZeroBy a p) = Q.truncTo (value a) (value p) := by
  unfold Q.truncTo
  by_cases h : value p = 0
  · rw [if_pos h, C20_zero a p h]
  · rw [if_neg h, C20_truncated a p h]
    congr 2
    split <;> rfl

example := C101_round_towards_zero_by (⟨-1999⟩ : FP .i64 2) ⟨-500⟩

theorem fraction_iff (a : FP L P) :
    maxValue L P < 2 * |value a - (Spec.round (if 0 ≤ value a then .floor else .ceil) (value a) : ℚ)| ↔
      rawMax L < 2 * |a.inner.toInt.tmod (10 ^ P)| := by
  have hp := ten_pow_pos P
  have hq := round_trunc_div a.inner.toInt (ten_pow_int_ne P)
  rw [← value_div_form] at hq
  rw [hq]
  have e : value a - ((a.inner.toInt.tdiv (10 ^ P) : Int) : ℚ) =
      ((a.inner.toInt.tmod (10 ^ P) : Int) : ℚ) / 10 ^ P := by
    rw [← loss_eq]; unfold value; push_cast; field_simp
  rw [e, abs_div, abs_of_pos hp, mul_div_assoc']
  unfold maxValue
  rw [div_lt_div_iff_of_pos_right hp]
  exact_mod_cast Iff.rfl

/-- C101: the integer part. -/
theorem C101_integral {cfg : Cfg} (hv : Valid cfg L P) (a : FP L P) (mode : RoundMode) :
    (FP.integral cfg a mode).mapOk BitVec.toInt =
      Q.integral L P cfg.overflowChecks (value a) mode := by
  unfold Q.integral
  dsimp only
  simp only [fraction_iff]
  by_cases h : value a = minValue L P ∨
      (mode = .nearest ∧ rawMax L < 2 * |a.inner.toInt.tmod (10 ^ P)|)
  · rw [if_pos h]
    cases hc : cfg.overflowChecks with
    | true => rw [(C18_integral_panics_iff hv hc a mode).2 h]; rfl
    | false =>
      obtain ⟨i, h1, h2⟩ := C18_integral_wrapped (ε := ArithErr) hv hc a mode h
      rw [h1, ← h2]; rfl
  · rw [if_neg h]
    obtain ⟨h1, h2⟩ := not_or.1 h
    obtain ⟨i, h3, h4⟩ := C18_integral_partial (ε := ArithErr) hv a mode h1
      fun hm => not_lt.1 fun hl => h2 ⟨hm, hl⟩
    rw [h3, ← h4]; rfl

example := C101_integral (cfg := debugCfg) (by decide) (⟨1500000000⟩ : FP .i64 9) .nearest

theorem whole_denote {cfg : Cfg} (hv : Valid cfg L P) (a : FP L P) (mode : RoundMode) :
    denote (do
      let i ← FP.integral cfg a mode
      unwrap (FP.fromDecimal cfg i 0 : Res ConvErr (FP L P))) =
      Q.whole L P cfg.overflowChecks (value a) mode := by
  unfold Q.whole
  rw [← C101_integral hv]
  cases FP.integral (ε := ArithErr) cfg a mode with
  | ok i => exact denote_exact_panic (fromDecimal_unwrap hv i)
  | err e => rfl
  | fault k => rfl

/-- C101: `floor`, `ceil` and `round`. -/
theorem C101_floor_ceil_round {cfg : Cfg} (hv : Valid cfg L P) (a : FP L P) :
    denote (FP.floor cfg a) = Q.whole L P cfg.overflowChecks (value a) .floor ∧
    denote (FP.ceil cfg a) = Q.whole L P cfg.overflowChecks (value a) .ceil ∧
    denote (FP.round cfg a) = Q.whole L P cfg.overflowChecks (value a) .nearest :=
  ⟨whole_denote hv a .floor, whole_denote hv a .ceil, whole_denote hv a .nearest⟩

example := C101_floor_ceil_round (cfg := debugCfg) (by decide) (⟨-1500000000⟩ : FP .i64 9)

/-! ## Programs on rational numbers -/

/-- An operation on rational numbers. -/
noncomputable def Op.sem (L : Layout) (P : Nat) (checks : Bool) (s : Nat → ℚ) : Op → Res ArithErr ℚ
  | .lit z => .ok ((Q.wrap L z : ℚ) / 10 ^ P)
  | .add i j => Q.fit L P (s i + s j)
  | .sub i j => Q.fit L P (s i - s j)
  | .neg i => Q.fit L P (-s i)
  | .abs i => Q.fit L P |s i|
  | .mulInt i n => Q.fit L P (s i * Q.wrap L n)
  | .mul i j m => Q.mul L P checks (s i) (s j) m
  | .div i j m => Q.div L P checks (s i) (s j) m
  | .divInt i n m => Q.divInt L P checks (s i) (Q.wrap L n) m
  | .recip i m => Q.div L P checks 1 (s i) m
  | .half i j m => .ok (Q.half P (s i) (s j) m)
  | .sqrt i m => Q.sqrt P (s i) m
  | .nextPower i => Q.nextPower L P (s i)
  | .truncTo i j => .ok (Q.truncTo (s i) (s j))
  | .floor i => Q.whole L P checks (s i) .floor
  | .ceil i => Q.whole L P checks (s i) .ceil
  | .round i => Q.whole L P checks (s i) .nearest
  | .satAdd i j => .ok (clamp L P (s i + s j))
  | .satSub i j => .ok (clamp L P (s i - s j))
  | .satMul i j m => Q.satMul L P checks (s i) (s j) m

/-- A program on rational numbers. -/
noncomputable def Cmd.sem (L : Layout) (P : Nat) (checks : Bool) :
    Nat → Cmd → (Nat → ℚ) → Res ArithErr (Nat → ℚ)
  | 0, _, _ => .fault .diverge
  | _ + 1, .skip, s => .ok s
  | _ + 1, .set d op, s => do
    let x ← op.sem L P checks s
    .ok fun k => if k = d then x else s k
  | fuel + 1, .attempt d op c e, s =>
    match op.sem L P checks s with
    | .ok x => sem L P checks fuel c fun k => if k = d then x else s k
    | .err _ => sem L P checks fuel e s
    | .fault k => .fault k
  | fuel + 1, .seq c e, s => do
    let s ← sem L P checks fuel c s
    sem L P checks fuel e s
  | fuel + 1, .cond i j c e, s =>
    if s i < s j then sem L P checks fuel c s else sem L P checks fuel e s
  | fuel + 1, .loop i j c, s =>
    if s i < s j then do
      let s ← sem L P checks fuel c s
      sem L P checks fuel (.loop i j c) s
    else .ok s

/-- The numbers in the registers. -/
def Regs.values (s : Regs L P) : Nat → ℚ := fun i => value (s i)

/-- C101: every operation. -/
theorem C101_op {cfg : Cfg} (hv : Valid cfg L P) (op : Op) (s : Regs L P) :
    denote (op.run cfg s) = op.sem L P cfg.overflowChecks s.values := by
  have hw : ∀ z : Int, (BitVec.ofInt L.bits z).toInt = Q.wrap L z := fun z => BitVec.toInt_ofInt z
  cases op with
  | lit z =>
    refine denote_ok ⟨_, rfl, ?_⟩
    unfold value; rw [hw]
  | add i j => exact denote_exact (C01_cadd_exact _ _)
  | sub i j => exact denote_exact (C02_csub_exact _ _)
  | neg i => exact denote_exact (C04_cneg_exact _)
  | abs i => exact denote_exact (C04_abs_exact _)
  | mulInt i n =>
    have := C03_cmul_exact (s i) (BitVec.ofInt L.bits n)
    rw [hw] at this
    exact denote_exact this
  | mul i j m => exact C101_rmul hv _ _ m
  | div i j m => exact C101_rdiv hv _ _ m
  | divInt i n m =>
    have := C101_rdiv_int cfg (s i) (BitVec.ofInt L.bits n) m
    rw [hw] at this
    exact this
  | recip i m => exact C101_recip hv _ m
  | half i j m => exact C101_half_sum cfg _ _ m
  | sqrt i m => exact C101_rsqrt hv _ m
  | nextPower i => exact C101_next_power _
  | truncTo i j => exact denote_ok ⟨_, rfl, C101_round_towards_zero_by _ _⟩
  | floor i => exact (C101_floor_ceil_round hv _).1
  | ceil i => exact (C101_floor_ceil_round hv _).2.1
  | round i => exact (C101_floor_ceil_round hv _).2.2
  | satAdd i j => exact denote_ok ⟨_, rfl, C05_saturating_add _ _⟩
  | satSub i j => exact denote_ok ⟨_, rfl, C05_saturating_sub _ _⟩
  | satMul i j m => exact C101_saturating_rmul hv _ _ m

example := C101_op (cfg := debugCfg) (L := .i64) (P := 9) (by decide) (.mul 0 1 .floor)
  fun i => if i = 0 then ⟨1500000000⟩ else ⟨-7⟩

theorem values_put (s : Regs L P) (d : Nat) (x : FP L P) :
    (s.put d x).values = fun k => if k = d then value x else s.values k := by
  funext k
  unfold Regs.values Regs.put
  split <;> rfl

theorem cmp_lt_iff (s : Regs L P) (i j : Nat) :
    FP.cmp (s i) (s j) = .lt ↔ s.values i < s.values j := by
  rw [C54_cmp, compare_lt_iff_lt]; rfl

/-- C101: a program run on machine words gives what it gives on rational numbers. -/
theorem C101_program {cfg : Cfg} (hv : Valid cfg L P) : ∀ (fuel : Nat) (c : Cmd) (s : Regs L P),
    (c.run cfg fuel s).mapOk Regs.values = c.sem L P cfg.overflowChecks fuel s.values
  | 0, c, s => by unfold Cmd.run Cmd.sem; rfl
  | fuel + 1, c, s => by
    have ih := C101_program hv fuel
    have hop : ∀ op : Op, op.sem L P cfg.overflowChecks s.values = denote (op.run cfg s) :=
      fun op => (C101_op hv op s).symm
    cases c with
    | skip => rfl
    | set d op =>
      unfold Cmd.run Cmd.sem
      rw [hop]
      cases op.run cfg s with
      | ok x => exact congrArg Res.ok (values_put s d x)
      | err e => rfl
      | fault k => rfl
    | attempt d op c e =>
      unfold Cmd.run Cmd.sem
      rw [hop]
      cases op.run cfg s with
      | ok x =>
        have := ih c (s.put d x)
        rw [values_put] at this
        exact this
      | err k => exact ih e s
      | fault k => rfl
    | seq c e =>
      unfold Cmd.run Cmd.sem
      rw [← ih c s]
      cases c.run cfg fuel s with
      | ok t => exact ih e t
      | err k => rfl
      | fault k => rfl
    | cond i j c e =>
      unfold Cmd.run Cmd.sem
      by_cases h : s.values i < s.values j
      · rw [if_pos h, if_pos ((cmp_lt_iff s i j).2 h)]; exact ih c s
      · rw [if_neg h, if_neg (fun hc => h ((cmp_lt_iff s i j).1 hc))]; exact ih e s
    | loop i j c =>
      unfold Cmd.run Cmd.sem
      by_cases h : s.values i < s.values j
      · rw [if_pos h, if_pos ((cmp_lt_iff s i j).2 h), ← ih c s]
        cases c.run cfg fuel s with
        | ok t => exact ih (.loop i j c) t
        | err k => rfl
        | fault k => rfl
      · rw [if_neg h, if_neg (fun hc => h ((cmp_lt_iff s i j).1 hc))]; rfl

example := C101_program (cfg := debugCfg) (L := .i64) (P := 9) (by decide) 5
  (.seq (.set 2 (.mul 0 1 .floor)) (.cond 2 1 .skip (.set 0 (.neg 2))))
  fun i => if i = 0 then ⟨1500000000⟩ else ⟨-7⟩

/-- C101: of the build, only the overflow checks matter for the outcome of a program. -/
theorem C101_only_checks {cfg cfg' : Cfg} (hv : Valid cfg L P) (hv' : Valid cfg' L P)
    (h : cfg.overflowChecks = cfg'.overflowChecks) (fuel : Nat) (c : Cmd) (s : Regs L P) :
    c.run cfg fuel s = c.run cfg' fuel s := by
  have h1 := C101_program hv fuel c s
  rw [h, ← C101_program hv' fuel c s] at h1
  have inj : ∀ t t' : Regs L P, t.values = t'.values → t = t' := fun t t' ht =>
    funext fun i => value_inj (congrFun ht i)
  revert h1
  generalize c.run cfg fuel s = r
  generalize c.run cfg' fuel s = r'
  intro h1
  cases r <;> cases r' <;> simp only [Res.mapOk] at h1 <;> try contradiction
  · injection h1 with h1; rw [inj _ _ h1]
  · injection h1 with h1; rw [h1]
  · injection h1 with h1; rw [h1]

/-! ## Examples -/

example : Valid debugCfg .i64 9 ∧ Valid releaseCfg .i64 9 := by decide +kernel

/-- `1.5 * 0.000000001` to nearest, `5 / 9000000000` to nearest in both profiles, `ceil(MIN)` and
`√2`, as functions on rational numbers. -/
example : Q.mul .i64 9 true (3 / 2) (1 / 10 ^ 9) .nearest = .ok (2 / 10 ^ 9) ∧
    Q.div .i64 9 true 5 9000000000 .nearest = .panic ∧
    Q.div .i64 9 false 5 9000000000 .nearest = .ok 0 ∧
    Q.whole .i64 9 true (-9223372036854775808 / 10 ^ 9) .ceil = .panic ∧
    Q.whole .i64 9 false (-9223372036854775808 / 10 ^ 9) .floor = .ok (-9223372036) ∧
    Q.sqrt 9 2 .floor = .ok (1414213562 / 10 ^ 9) := by
  have hd : Valid debugCfg .i64 9 := by decide +kernel
  have hr : Valid releaseCfg .i64 9 := by decide +kernel
  have v : ∀ z : Int, Fits 64 z → value (⟨BitVec.ofInt 64 z⟩ : FP .i64 9) = z / 10 ^ 9 :=
    fun z hz => value_ofInt (L := .i64) hz
  have w : ∀ z : Int, Fits 64 z →
      denote (.ok ⟨BitVec.ofInt 64 z⟩ : Res ArithErr (FP .i64 9)) = .ok ((z : ℚ) / 10 ^ 9) :=
    fun z hz => congrArg Res.ok (v z hz)
  have f : ∀ z : Int, -2 ^ 63 ≤ z ∧ z ≤ 2 ^ 63 - 1 → Fits 64 z := fun z h => h
  refine ⟨?_, ?_, ?_, ?_, ?_, ?_⟩
  · have := C101_rmul hd ⟨BitVec.ofInt 64 1500000000⟩ ⟨BitVec.ofInt 64 1⟩ .nearest
    rw [v _ (f _ (by norm_num)), v _ (f _ (by norm_num)), show FP.rmul debugCfg
      (⟨BitVec.ofInt 64 1500000000⟩ : FP .i64 9) ⟨BitVec.ofInt 64 1⟩ .nearest
        = .ok ⟨BitVec.ofInt 64 2⟩ by decide +kernel, w _ (f _ (by norm_num))] at this
    norm_num at this ⊢
    exact this.symm
  · have := C101_rdiv hd ⟨BitVec.ofInt 64 5000000000⟩ ⟨BitVec.ofInt 64 9000000000000000000⟩ .nearest
    rw [v _ (f _ (by norm_num)), v _ (f _ (by norm_num)), show FP.rdiv debugCfg
      (⟨BitVec.ofInt 64 5000000000⟩ : FP .i64 9) ⟨BitVec.ofInt 64 9000000000000000000⟩ .nearest
        = .panic by decide +kernel] at this
    norm_num at this ⊢
    exact this.symm
  · have := C101_rdiv hr ⟨BitVec.ofInt 64 5000000000⟩ ⟨BitVec.ofInt 64 9000000000000000000⟩ .nearest
    rw [v _ (f _ (by norm_num)), v _ (f _ (by norm_num)), show FP.rdiv releaseCfg
      (⟨BitVec.ofInt 64 5000000000⟩ : FP .i64 9) ⟨BitVec.ofInt 64 9000000000000000000⟩ .nearest
        = .ok ⟨BitVec.ofInt 64 0⟩ by decide +kernel, w _ (f _ (by norm_num))] at this
    norm_num at this ⊢
    exact this.symm
  · have := (C101_floor_ceil_round hd ⟨BitVec.ofInt 64 (-9223372036854775808)⟩).2.1
    rw [v _ (f _ (by norm_num)), show FP.ceil debugCfg
      (⟨BitVec.ofInt 64 (-9223372036854775808)⟩ : FP .i64 9) = .panic by decide +kernel] at this
    norm_num at this ⊢
    exact this.symm
  · have := (C101_floor_ceil_round hr ⟨BitVec.ofInt 64 (-9223372036854775808)⟩).1
    rw [v _ (f _ (by norm_num)), show FP.floor releaseCfg
      (⟨BitVec.ofInt 64 (-9223372036854775808)⟩ : FP .i64 9)
        = .ok ⟨BitVec.ofInt 64 (-9223372036000000000)⟩ by decide +kernel, w _ (f _ (by norm_num))] at this
    norm_num at this ⊢
    exact this.symm
  · have := C101_rsqrt hd ⟨BitVec.ofInt 64 2000000000⟩ .floor
    rw [v _ (f _ (by norm_num)), show FP.rsqrt debugCfg
      (⟨BitVec.ofInt 64 2000000000⟩ : FP .i64 9) .floor
        = .ok ⟨BitVec.ofInt 64 1414213562⟩ by decide +kernel, w _ (f _ (by norm_num))] at this
    norm_num at this ⊢
    exact this.symm

end Fixnum
