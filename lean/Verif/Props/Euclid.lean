import Verif.Props.Balances
import Verif.Props.Clients
import Verif.Props.Finer
import Verif.Props.BalancedSum

/-! # Property C133: whole quotients, remainders and the greatest common measure

The crate has no remainder.  Client code: `a.rdiv(b, mode)?.integral(mode)` for the whole quotient, `a.csub(
b.cmul(q)?)?` for what is left, and Euclid's algorithm with `rdiv` of the raw integers. -/

namespace Fixnum

open Res Spec

variable {L : Layout} {P : Nat}

/-- The client: how often `b` is contained in `a`; `rdiv`, `/repo/src/lib.rs:312-347`, then `integral`,
`/repo/src/lib.rs:501-516`. -/
def wholeQuotient (cfg : Cfg) (mode : RoundMode) (a b : FP L P) : Res ArithErr (BitVec L.bits) := do
  let q ← FP.rdiv cfg a b mode
  FP.integral cfg q mode

/-- The client: quotient and remainder; `cmul`, `/repo/src/lib.rs:411-413`, and `csub`, `/repo/src/lib.rs:395-397`. -/
def divRem (cfg : Cfg) (a b : FP L P) : Res ArithErr (BitVec L.bits × FP L P) := do
  let q ← wholeQuotient cfg .floor a b
  let m ← FP.cmul b q
  let r ← FP.csub a m
  .ok (q, r)

/-- The client: Euclid's algorithm, `while b != ZERO`, at most `fuel` rounds (`.diverge` after them); the
quotient by `rdiv` of the raw integers, `/repo/src/ops/mod.rs:449-475`, got with `into_bits`. -/
def euclid (cfg : Cfg) : Nat → FP L P → FP L P → Res ArithErr (FP L P)
  | 0, _, _ => .fault .diverge
  | fuel + 1, a, b =>
    if FP.cmp b FP.zero = .eq then .ok a
    else do
      let q ← SInt.rdiv cfg a.inner b.inner .floor
      let m ← FP.cmul b q
      let r ← FP.csub a m
      euclid cfg fuel b r

/-- `d` is contained a whole number of times in `q`. -/
def Spec.Measures (d q : ℚ) : Prop := ∃ k : Int, q = k * d

theorem round_roundTo {mode : RoundMode} (hm : mode ≠ .nearest) (q : ℚ) :
    Spec.round mode (roundTo P mode q) = Spec.round mode q := by
  have h := roundTo_roundTo (P := 0) (P' := P) (Nat.zero_le _) hm q
  unfold roundTo at h ⊢
  simp only [pow_zero, mul_one, div_one] at h
  exact_mod_cast h

/-- **C133** the whole quotient: rounding twice in the same direction is rounding once. -/
theorem C133_quotient {cfg : Cfg} (hv : Valid cfg L P) {mode : RoundMode} (hm : mode ≠ .nearest)
    (a b : FP L P) (hb : value b ≠ 0) (h1 : minValue L P + 1 / 10 ^ P ≤ value a / value b)
    (h2 : value a / value b ≤ maxValue L P) :
    ∃ q, wholeQuotient cfg mode a b = .ok q ∧ q.toInt = Spec.round mode (value a / value b) := by
  have hp := ten_pow_pos P
  have hlo : Representable L P (((rawMin L + 1 : Int) : ℚ) / 10 ^ P) := by
    rw [representable_iff, fits_iff]
    refine ⟨by omega, ?_⟩
    unfold rawMin rawMax
    have : (0 : Int) < 2 ^ (L.bits - 1) := by positivity
    omega
  obtain ⟨lo, hlo⟩ := hlo
  have elo : value lo = minValue L P + 1 / 10 ^ P := by
    rw [hlo]; unfold minValue; push_cast; ring
  have ehi : value (FP.max : FP L P) = maxValue L P := (C52_bounds_value (L := L) (P := P)).2
  obtain ⟨w1, _⟩ := roundTo_within mode lo FP.max (elo ▸ h1) (ehi ▸ h2)
  obtain ⟨r, r1, r2⟩ := (C10_rdiv_directed hv a b mode hm hb).1
    (representable_within mode lo FP.max (elo ▸ h1) (ehi ▸ h2))
  have hr : value r ≠ minValue L P := by
    rw [r2]
    have : (0 : ℚ) < 1 / 10 ^ P := by positivity
    intro h
    rw [h, elo] at w1
    linarith
  obtain ⟨i, i1, i2⟩ := C18_integral_partial (ε := ArithErr) hv r mode hr fun h => absurd h hm
  refine ⟨i, ?_, ?_⟩
  · unfold wholeQuotient
    rw [r1, ok_bind, i1]
  · rw [i2, r2, round_roundTo hm]

/-- 100.00 in bags of 0.30: 333 full ones, 334 in all. -/
example : wholeQuotient debugCfg .floor (⟨10000⟩ : FP .i64 2) ⟨30⟩ = .ok 333 ∧
    wholeQuotient debugCfg .ceil (⟨10000⟩ : FP .i64 2) ⟨30⟩ = .ok 334 := by decide +kernel

example : ∃ q, wholeQuotient debugCfg .ceil (⟨10000⟩ : FP .i64 2) ⟨30⟩ = .ok q ∧
    q.toInt = Spec.round .ceil (value (⟨10000⟩ : FP .i64 2) / value (⟨30⟩ : FP .i64 2)) := by
  have e1 : value (⟨10000⟩ : FP .i64 2) = 100 := by
    rw [value_eq _ 10000 (by decide)]; norm_num
  have e2 : value (⟨30⟩ : FP .i64 2) = 3 / 10 := by
    rw [value_eq _ 30 (by decide)]; norm_num
  apply C133_quotient (by decide) (by decide)
  · rw [e2]; norm_num
  · rw [e1, e2]; unfold minValue
    rw [show rawMin .i64 = -9223372036854775808 by decide +kernel]; norm_num
  · rw [e1, e2]; unfold maxValue
    rw [show rawMax .i64 = 9223372036854775807 by decide +kernel]; norm_num

/-- **C133** to nearest, rounding twice is not rounding once: 4.5 / 10 gives 1. -/
theorem C133_nearest :
    wholeQuotient debugCfg .nearest (⟨45⟩ : FP .i64 1) ⟨100⟩ = .ok 1 ∧
    Spec.round .nearest (value (⟨45⟩ : FP .i64 1) / value (⟨100⟩ : FP .i64 1)) = 0 := by
  refine ⟨by decide +kernel, ?_⟩
  rw [value_eq (⟨45⟩ : FP .i64 1) 45 (by decide), value_eq (⟨100⟩ : FP .i64 1) 100 (by decide)]
  unfold Spec.round Spec.nearest
  norm_num

/-- **C133** nor is rounding in two directions: 20.001 in pieces of 10.000 needs 3 of them, not 2. -/
theorem C133_mixed :
    (do let q ← FP.rdiv debugCfg (⟨20001⟩ : FP .i64 3) ⟨10000⟩ .floor
        FP.integral debugCfg q .ceil) = .ok 2 ∧
    Spec.round .ceil (value (⟨20001⟩ : FP .i64 3) / value (⟨10000⟩ : FP .i64 3)) = 3 := by
  refine ⟨by decide +kernel, ?_⟩
  rw [value_eq (⟨20001⟩ : FP .i64 3) 20001 (by decide), value_eq (⟨10000⟩ : FP .i64 3) 10000 (by decide)]
  unfold Spec.round
  rw [Int.ceil_eq_iff]
  norm_num

/-- The last steps of `divRem` and of a round of `euclid`. -/
theorem rem_step {a b : FP L P} (ha : 0 ≤ value a) (hb : 0 < value b) {q : BitVec L.bits}
    (hq : q.toInt = ⌊value a / value b⌋) :
    ∃ m r, FP.cmul b q = .ok m ∧ FP.csub a m = .ok r ∧ value a = q.toInt * value b + value r ∧
      0 ≤ value r ∧ value r < value b := by
  have hp := ten_pow_pos P
  have q0 : (0 : ℚ) ≤ q.toInt := by
    rw [hq]; exact_mod_cast Int.floor_nonneg.2 (div_nonneg ha hb.le)
  have q1 : (q.toInt : ℚ) * value b ≤ value a := by
    rw [hq, ← le_div_iff₀ hb]; exact Int.floor_le _
  have q2 : value a < (q.toInt + 1 : ℚ) * value b := by
    rw [hq, ← div_lt_iff₀ hb]; exact Int.lt_floor_add_one _
  have e : value b * (q.toInt : ℚ) = ((b.inner.toInt * q.toInt : Int) : ℚ) / 10 ^ P := by
    unfold value; push_cast; ring
  obtain ⟨m, m1, m2⟩ := (C03_cmul_exact b q).1 (by
    rw [e]
    apply representable_upTo (c := a)
    · rw [← e]; positivity
    · rw [← e]; linarith)
  have e' : value a - value m = ((a.inner.toInt - m.inner.toInt : Int) : ℚ) / 10 ^ P := by
    unfold value; push_cast; ring
  obtain ⟨r, r1, r2⟩ := (C02_csub_exact a m).1 (by
    rw [e']
    apply representable_upTo (c := a)
    · rw [← e', m2]; linarith
    · rw [← e', m2]; nlinarith)
  refine ⟨m, r, m1, r1, ?_, ?_, ?_⟩ <;> rw [r2, m2] <;> linarith

/-- **C133** quotient and remainder: as in school. -/
theorem C133_remainder {cfg : Cfg} (hv : Valid cfg L P) (a b : FP L P) (ha : 0 ≤ value a)
    (hb : 0 < value b) (h : value a / value b ≤ maxValue L P) :
    ∃ q r, divRem cfg a b = .ok (q, r) ∧ value a = q.toInt * value b + value r ∧
      0 ≤ value r ∧ value r < value b := by
  obtain ⟨q, q1, q2⟩ := C133_quotient hv (mode := .floor) (by decide) a b hb.ne' (by
    have h0 : (0 : ℚ) ≤ value a / value b := div_nonneg ha hb.le
    refine le_trans ?_ h0
    have hp := ten_pow_pos P
    have e : minValue L P + 1 / 10 ^ P = ((rawMin L + 1 : Int) : ℚ) / 10 ^ P := by
      unfold minValue; push_cast; ring
    rw [e]
    apply div_nonpos_of_nonpos_of_nonneg _ hp.le
    have : (0 : Int) < 2 ^ (L.bits - 1) := by positivity
    have : rawMin L + 1 ≤ 0 := by unfold rawMin; omega
    exact_mod_cast this) h
  obtain ⟨m, r, m1, r1, k⟩ := rem_step ha hb q2
  refine ⟨q, r, ?_, k⟩
  unfold divRem
  rw [q1, ok_bind, m1, ok_bind, r1, ok_bind]

example := C133_remainder (cfg := debugCfg) (by decide) (⟨10000⟩ : FP .i64 2) ⟨30⟩ (by decide +kernel)
  (by decide +kernel) (by decide +kernel)

example : divRem debugCfg (⟨10000⟩ : FP .i64 2) ⟨30⟩ = .ok (333, ⟨10⟩) := by decide +kernel

example : 0 ≤ value (⟨10000⟩ : FP .i64 2) ∧ 0 < value (⟨30⟩ : FP .i64 2) ∧
    value (⟨10000⟩ : FP .i64 2) / value (⟨30⟩ : FP .i64 2) ≤ maxValue .i64 2 := by
  rw [value_eq (⟨10000⟩ : FP .i64 2) 10000 (by decide), value_eq (⟨30⟩ : FP .i64 2) 30 (by decide)]
  unfold maxValue
  rw [show rawMax .i64 = 9223372036854775807 by decide +kernel]
  norm_num

/-- A round of Euclid's algorithm. -/
theorem euclid_round (cfg : Cfg) {a b : FP L P} (ha : 0 ≤ value a) (hb : 0 < value b) :
    ∃ (q : BitVec L.bits) (r : FP L P), (∀ fuel, euclid cfg (fuel + 1) a b = euclid cfg fuel b r) ∧
      value a = q.toInt * value b + value r ∧ 0 ≤ value r ∧ value r < value b := by
  have hp := ten_pow_pos P
  have hz : value (FP.zero : FP L P) = 0 := C52_zero
  have ia : 0 ≤ a.inner.toInt := (value_nonneg_iff a).1 ha
  have ib : b.inner.toInt ≠ 0 := by
    rw [Ne, ← value_eq_zero_iff b]; exact hb.ne'
  have ib' : 0 ≤ b.inner.toInt := (value_nonneg_iff b).1 hb.le
  have ed : (a.inner.toInt : ℚ) / (b.inner.toInt : ℚ) = value a / value b := by
    unfold value; rw [div_div_div_cancel_right₀ hp.ne']
  have hfl : 0 ≤ ⌊value a / value b⌋ := Int.floor_nonneg.2 (div_nonneg ha hb.le)
  have hle : ⌊value a / value b⌋ ≤ a.inner.toInt := by
    rw [← ed]
    have h1 : (1 : ℚ) ≤ b.inner.toInt := by exact_mod_cast (by omega : 1 ≤ b.inner.toInt)
    have h2 : (0 : ℚ) ≤ a.inner.toInt := by exact_mod_cast ia
    have h3 : (a.inner.toInt : ℚ) / b.inner.toInt ≤ a.inner.toInt := div_le_self h2 h1
    exact_mod_cast (Int.floor_le _).trans h3
  have fa := (fits_iff L _).1 (toInt_fits a.inner)
  unfold rawMin rawMax at fa
  have hw : 8 ≤ L.bits := by cases L <;> decide
  have hpow : (0 : Int) < 2 ^ (L.bits - 1) := by positivity
  have hx := C14_int_rdiv_partial hw cfg a.inner b.inner .floor ib (by omega) (by intro h; cases h)
  rw [ed] at hx
  obtain ⟨q, q1, q2⟩ := hx.1 ⟨by show _ ≤ ⌊_⌋; omega, by show ⌊_⌋ ≤ _; omega⟩
  obtain ⟨m, r, m1, r1, k⟩ := rem_step ha hb q2
  refine ⟨q, r, fun fuel => ?_, k⟩
  have hc : ¬ FP.cmp b FP.zero = .eq := by
    rw [C54_cmp, compare_eq_iff_eq, hz]; exact hb.ne'
  show (if FP.cmp b FP.zero = .eq then _ else _) = _
  rw [if_neg hc, q1, ok_bind, m1, ok_bind, r1, ok_bind]

/-- **C133** Euclid's algorithm ends, after at most as many rounds as `b` is units, and nothing fails; the
result measures both numbers, and whatever measures both measures it. -/
theorem C133_euclid (cfg : Cfg) (fuel : Nat) : ∀ (a b : FP L P), 0 ≤ value a → 0 ≤ value b →
    value b * 10 ^ P < fuel →
    ∃ g, euclid cfg fuel a b = .ok g ∧ 0 ≤ value g ∧ Measures (value g) (value a) ∧
      Measures (value g) (value b) ∧
      ∀ d, Measures d (value a) → Measures d (value b) → Measures d (value g) := by
  have hp := ten_pow_pos P
  have hz : value (FP.zero : FP L P) = 0 := C52_zero
  have units : ∀ x : FP L P, value x * 10 ^ P = (x.inner.toInt : ℚ) := by
    intro x; unfold value; rw [div_mul_cancel₀ _ hp.ne']
  induction fuel with
  | zero =>
    intro a b _ hb hf
    have : 0 ≤ value b * 10 ^ P := by positivity
    push_cast at hf
    linarith
  | succ fuel ih =>
    intro a b ha hb hf
    rcases hb.eq_or_lt with h0 | h0
    · refine ⟨a, ?_, ha, ⟨1, by simp⟩, ⟨0, by simp [← h0]⟩, fun d h _ => h⟩
      have hc : FP.cmp b FP.zero = .eq := by rw [C54_cmp, compare_eq_iff_eq, hz, ← h0]
      show (if FP.cmp b FP.zero = .eq then _ else _) = _
      rw [if_pos hc]
    · obtain ⟨q, r, e, k1, k2, k3⟩ := euclid_round cfg ha h0
      have hr : value r * 10 ^ P < fuel := by
        rw [units] at hf ⊢
        have h1 : value r * 10 ^ P < value b * 10 ^ P := by nlinarith
        rw [units, units] at h1
        have h1 : r.inner.toInt < b.inner.toInt := by exact_mod_cast h1
        have h2 : b.inner.toInt < (fuel + 1 : Nat) := by exact_mod_cast hf
        exact_mod_cast (by push_cast at h2; omega : r.inner.toInt < (fuel : Int))
      obtain ⟨g, g1, g2, ⟨x, hx⟩, ⟨y, hy⟩, g5⟩ := ih b r hb k2 hr
      refine ⟨g, by rw [e, g1], g2, ⟨q.toInt * x + y, ?_⟩, ⟨x, hx⟩, ?_⟩
      · push_cast
        rw [k1, add_mul, mul_assoc, ← hx, ← hy]
      · rintro d ⟨s, hs⟩ ⟨t, ht⟩
        refine g5 d ⟨t, ht⟩ ⟨s - q.toInt * t, ?_⟩
        push_cast
        rw [sub_mul, mul_assoc, ← hs, ← ht]
        linarith

example := C133_euclid debugCfg 326 (⟨750⟩ : FP .i64 2) ⟨325⟩ (by decide +kernel) (by decide +kernel)
  (by decide +kernel)

/-- 7.50 and 3.25 are multiples of 0.25. -/
example : euclid debugCfg 326 (⟨750⟩ : FP .i64 2) ⟨325⟩ = .ok ⟨25⟩ ∧
    euclid debugCfg 1 (⟨750⟩ : FP .i64 2) ⟨0⟩ = .ok ⟨750⟩ := by decide +kernel

example : 0 ≤ value (⟨750⟩ : FP .i64 2) ∧ 0 ≤ value (⟨325⟩ : FP .i64 2) ∧
    value (⟨325⟩ : FP .i64 2) * 10 ^ 2 < (326 : Nat) := by
  rw [value_eq (⟨750⟩ : FP .i64 2) 750 (by decide), value_eq (⟨325⟩ : FP .i64 2) 325 (by decide)]
  norm_num

end Fixnum
