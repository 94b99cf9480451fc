import Verif.Props.Monotone
import Verif.Props.Sqrt
import Verif.Props.Text
import Verif.Props.Float

/-! # Property C116: the maximal calculation error

The documentation of `FixedPoint` (`/repo/src/lib.rs:188-196`) promises
`ERROR_MAX = 0.5 / (10 ^ PRECISION)`. -/

namespace Fixnum

open Res Spec

variable {L : Layout} {P : Nat} {ε : Type}

/-- In every build, every returned quotient by an integer is the exact one rounded in some
direction. -/
theorem rdivInt_some_checked {cfg : Cfg} {a r : FP L P} {n : BitVec L.bits} {mode : RoundMode}
    (h : FP.rdivInt cfg a n mode = .ok r) :
    ∃ m, value r = roundTo P m (value a / n.toInt) := by
  have hw := bits_ge L
  have hb : n.toInt ≠ 0 := fun hz => by
    rw [(C12_rdivInt_zero_iff cfg a n mode).2 hz] at h; cases h
  have hmin : ¬ (a.inner.toInt = rawMin L ∧ n.toInt = -1) := fun ⟨k1, k2⟩ => by
    have := (C14_int_rdiv_min_false cfg a.inner n mode k1 k2).1
    unfold FP.rdivInt at h
    rw [this] at h; cases h
  by_cases hs : mode = .nearest ∧ ¬ IntNearestSafe L.bits a.inner.toInt n.toInt
  · obtain ⟨rfl, hs⟩ := hs
    cases hc : cfg.overflowChecks
    · obtain ⟨s, e, v⟩ := C12_rdivInt_wrapped cfg hc a n hb hs
      rw [e] at h; cases h
      split at v
      · exact ⟨_, v⟩
      · exact ⟨_, v⟩
    · rw [(C12_rdivInt_panics_iff cfg hc a n .nearest hb).2 (.inr ⟨rfl, hs⟩)] at h; cases h
  · refine ⟨mode, ((C12_rdivInt_partial cfg a n mode hb hmin ?_).ok_iff r).1 h⟩
    intro hm
    exact not_not.1 fun k => hs ⟨hm, k⟩

/-- C116: in every mode and build, whatever `rmul`, `rdiv` (also by and of integers), `recip` and
`half_sum` return is less than one unit of the last place from the exact result. -/
theorem C116_below_one_unit {cfg : Cfg} (hv : Valid cfg L P) (a b r : FP L P) (n : BitVec L.bits)
    (mode : RoundMode) :
    (FP.rmul cfg a b mode = .ok r → |value r - value a * value b| < 1 / 10 ^ P) ∧
    (FP.rdiv cfg a b mode = .ok r → |value r - value a / value b| < 1 / 10 ^ P) ∧
    (FP.rdivInt cfg a n mode = .ok r → |value r - value a / n.toInt| < 1 / 10 ^ P) ∧
    (FP.intRdiv cfg n b mode = .ok r → |value r - n.toInt / value b| < 1 / 10 ^ P) ∧
    (FP.recip cfg b mode = .ok r → |value r - 1 / value b| < 1 / 10 ^ P) ∧
    ((FP.halfSum cfg a b mode : Res ε _) = .ok r →
      |value r - (value a + value b) / 2| < 1 / 10 ^ P) := by
  refine ⟨fun h => ?_, fun h => ?_, fun h => ?_, fun h => ?_, fun h => ?_, fun h => ?_⟩
  · obtain ⟨m, e⟩ := rmul_some hv h
    rw [e]; exact roundTo_error P m _
  · obtain ⟨m, e⟩ := rdiv_some hv h
    rw [e]; exact roundTo_error P m _
  · obtain ⟨m, e⟩ := rdivInt_some_checked h
    rw [e]; exact roundTo_error P m _
  · by_cases hn : Representable L P (n.toInt : ℚ)
    · obtain ⟨l, e1, -, e2⟩ := intRdiv_eq hv n b mode hn
      rw [e2] at h
      obtain ⟨m, e⟩ := rdiv_some hv h
      rw [e, e1]; exact roundTo_error P m _
    · rw [C13_intRdiv_overflow hv n b mode hn] at h; cases h
  · obtain ⟨o, e1, e2⟩ := C15_recip_is_rdiv hv b mode
    rw [e2] at h
    obtain ⟨m, e⟩ := rdiv_some hv h
    rw [e, e1]; exact roundTo_error P m _
  · by_cases hm : mode = .nearest
    · subst hm
      by_cases hn : value a < 0 ∧ value b < 0
      · obtain ⟨s, e, v⟩ := C17_half_sum_negative (ε := ε) cfg a b hn.1 hn.2
        rw [e] at h; cases h
        rw [v]; exact roundTo_error P _ _
      · obtain ⟨s, e, v⟩ := C17_half_sum_ties_partial (ε := ε) cfg a b hn
        rw [e] at h; cases h
        rw [v]; exact roundTo_error P _ _
    · obtain ⟨s, e, v⟩ := C16_half_sum_directed (ε := ε) cfg a b mode hm
      rw [e] at h; cases h
      rw [v]; exact roundTo_error P _ _

-- 5 / 9000000000 rounded to nearest without overflow checks, which gives 0 (C11)
example := (C116_below_one_unit (ε := Unit) (cfg := releaseCfg) (by decide) (⟨5000000000⟩ : FP .i64 9)
  ⟨9000000000000000000⟩ ⟨0⟩ 0 .nearest).2.1 (by decide +kernel)

/-- C116: also the square root. -/
theorem C116_rsqrt {cfg : Cfg} (hv : Valid cfg L P) (a r : FP L P) (mode : RoundMode)
    (h : FP.rsqrt cfg a mode = .ok r) :
    |((value r : ℚ) : ℝ) - √((value a : ℚ) : ℝ)| < 1 / 10 ^ P ∧
    (mode = .nearest → |((value r : ℚ) : ℝ) - √((value a : ℚ) : ℝ)| < 1 / 2 / 10 ^ P) := by
  have ha : 0 ≤ value a := by
    by_contra k
    rw [(C22_rsqrt_domain hv a mode).2 (not_le.1 k)] at h; cases h
  obtain ⟨s, e, -, v⟩ := C22_rsqrt hv a ha mode
  rw [e] at h; cases h
  have hp : (0 : ℝ) < 10 ^ P := by positivity
  have hq : (1 : ℝ) / 2 / 10 ^ P < 1 / 10 ^ P := by
    rw [div_lt_div_iff_of_pos_right hp]; norm_num
  cases mode
  · refine ⟨?_, fun k => by cases k⟩
    rw [abs_lt]; constructor <;> linarith [v.1, v.2]
  · exact ⟨lt_trans v hq, fun _ => v⟩
  · refine ⟨?_, fun k => by cases k⟩
    rw [abs_lt]; constructor <;> linarith [v.1, v.2]

example := C116_rsqrt (cfg := debugCfg) (by decide) (⟨2000000000⟩ : FP .i64 9) ⟨1414213562⟩ .floor
  (by decide +kernel)

/-- C116, the documented bound: with `Nearest`, whatever these operations return is at most half a
unit from the exact result; in builds with overflow checks.  `half_sum` and `from_str` in every build.
Missing: the directed modes, builds without overflow checks, and `TryFrom<f64>`; the claim is false for
them, see below. -/
theorem C116_half_unit_partial {cfg : Cfg} (hv : Valid cfg L P) (hc : cfg.overflowChecks = true)
    (a b r : FP L P) (n : BitVec L.bits) :
    (FP.rmul cfg a b .nearest = .ok r → |value r - value a * value b| ≤ 1 / 2 / 10 ^ P) ∧
    (FP.rdiv cfg a b .nearest = .ok r → |value r - value a / value b| ≤ 1 / 2 / 10 ^ P) ∧
    (FP.rdivInt cfg a n .nearest = .ok r → |value r - value a / n.toInt| ≤ 1 / 2 / 10 ^ P) ∧
    (FP.intRdiv cfg n b .nearest = .ok r → |value r - n.toInt / value b| ≤ 1 / 2 / 10 ^ P) ∧
    (FP.recip cfg b .nearest = .ok r → |value r - 1 / value b| ≤ 1 / 2 / 10 ^ P) := by
  refine ⟨fun h => ?_, fun h => ?_, fun h => ?_, fun h => ?_, fun h => ?_⟩
  · rw [rmul_checked_value hv (.inr hc) h]; exact roundTo_nearest_error P _
  · rw [(rdiv_checked_value hv (.inr hc) h).2]; exact roundTo_nearest_error P _
  · have hb : n.toInt ≠ 0 := fun hz => by
      rw [(C12_rdivInt_zero_iff cfg a n .nearest).2 hz] at h; cases h
    have k := (C12_rdivInt_panics_iff cfg hc a n .nearest hb).not.1 (by rw [h]; exact fun k => by cases k)
    rw [not_or] at k
    rw [((C12_rdivInt_partial cfg a n .nearest hb k.1
      fun _ => not_not.1 fun w => k.2 ⟨rfl, w⟩).ok_iff r).1 h]
    exact roundTo_nearest_error P _
  · by_cases hn : Representable L P (n.toInt : ℚ)
    · obtain ⟨l, e1, -, e2⟩ := intRdiv_eq hv n b .nearest hn
      rw [e2] at h
      rw [(rdiv_checked_value hv (.inr hc) h).2, e1]; exact roundTo_nearest_error P _
    · rw [C13_intRdiv_overflow hv n b .nearest hn] at h; cases h
  · obtain ⟨o, e1, e2⟩ := C15_recip_is_rdiv hv b .nearest
    rw [e2] at h
    rw [(rdiv_checked_value hv (.inr hc) h).2, e1]; exact roundTo_nearest_error P _

example := (C116_half_unit_partial (cfg := debugCfg) (by decide) (by decide) (⟨20000⟩ : FP .i16 2)
  ⟨-700⟩ ⟨-2857⟩ 0).2.1 (by decide +kernel)

/-- C116: `half_sum(.., Nearest)` and `from_str` keep the documented bound in every build. -/
theorem C116_half_unit {cfg : Cfg} (hv : Valid cfg L P) (hP : 1 ≤ P) (a b r : FP L P) :
    ((FP.halfSum cfg a b .nearest : Res ε _) = .ok r →
      |value r - (value a + value b) / 2| ≤ 1 / 2 / 10 ^ P) ∧
    (∀ s, FP.fromStr cfg s = .ok r → ∃ l, IsText s l ∧ |value r - l.denote| ≤ 1 / 2 / 10 ^ P) := by
  constructor
  · intro h
    obtain ⟨s, e, v⟩ := C16_half_sum_nearest (ε := ε) cfg a b
    rw [e] at h; cases h
    rw [abs_sub_comm]
    exact v.trans_eq (by ring)
  · intro s h
    obtain ⟨l, h1, h2⟩ := (C32_from_str_iff hv hP s r).1 h
    exact ⟨l, h1, by rw [h2]; exact roundTo_nearest_error P _⟩

example := (C116_half_unit (ε := Unit) (cfg := debugCfg) (by decide) (by decide) (⟨0⟩ : FP .i64 4) ⟨0⟩
  ⟨-1235⟩).2 "-0.12345".toList (by decide +kernel)

/-- C116, the bound of one unit is the best one: in every type the square of `EPSILON`, rounded up, is
off by all but `10^-P` of a unit. -/
theorem C116_one_unit_sharp {cfg : Cfg} (hv : Valid cfg L P) :
    ∃ a r : FP L P, FP.rmul cfg a a .ceil = .ok r ∧
      |value r - value a * value a| = (1 - 1 / 10 ^ P) * (1 / 10 ^ P) := by
  have e := C52_epsilon (L := L) (P := P)
  have hp := ten_pow_pos P
  have hp1 : (1 : ℚ) ≤ 10 ^ P := one_le_pow₀ (by norm_num)
  have hr : roundTo P .ceil (value (FP.epsilon : FP L P) * value (FP.epsilon : FP L P)) =
      value (FP.epsilon : FP L P) := by
    rw [e.1]
    unfold roundTo
    have : (1 : ℚ) / 10 ^ P * (1 / 10 ^ P) * 10 ^ P = 1 / 10 ^ P := by field_simp
    rw [this]
    have : Spec.round .ceil ((1 : ℚ) / 10 ^ P) = 1 := by
      simp only [Spec.round]
      rw [Int.ceil_eq_iff]
      constructor
      · push_cast; simp
      · push_cast; exact (div_le_one hp).2 hp1
    rw [this]; norm_num
  refine ⟨FP.epsilon, FP.epsilon, ?_, ?_⟩
  · have k := C07_rmul_partial hv (FP.epsilon : FP L P) FP.epsilon .ceil (by simp)
    rw [hr] at k
    exact ExactOr.ok_of_value k
  · rw [e.1, abs_of_nonneg]
    · ring
    · have : (1 : ℚ) / 10 ^ P ≤ 1 := (div_le_one hp).2 hp1
      have h0 : (0 : ℚ) < 1 / 10 ^ P := by positivity
      nlinarith

example := C116_one_unit_sharp (cfg := debugCfg) (L := .i64) (P := 9) (by decide)

/-- C116 is false for the directed modes, for `Nearest` without overflow checks (`5 / 9000000000`), and
for `TryFrom<f64>` (`0.45` without digits is `1`). -/
theorem C116_half_unit_false :
    (FP.rmul debugCfg (⟨1⟩ : FP .i64 9) ⟨1⟩ .ceil = .ok ⟨1⟩ ∧
      1 / 2 / 10 ^ 9 < |value (⟨1⟩ : FP .i64 9) - value (⟨1⟩ : FP .i64 9) * value (⟨1⟩ : FP .i64 9)|) ∧
    (FP.rdiv releaseCfg (⟨5000000000⟩ : FP .i64 9) ⟨9000000000000000000⟩ .nearest = .ok ⟨0⟩ ∧
      1 / 2 / 10 ^ 9 < |value (⟨0⟩ : FP .i64 9) -
        value (⟨5000000000⟩ : FP .i64 9) / value (⟨9000000000000000000⟩ : FP .i64 9)|) ∧
    ((FP.tryFromF64 debugCfg 0x3FDCCCCCCCCCCCCD : Res ConvErr (FP .i64 0)) = .ok ⟨1⟩ ∧
      1 / 2 / 10 ^ 0 < |value (⟨1⟩ : FP .i64 0) - f64Value 0x3FDCCCCCCCCCCCCD|) := by
  refine ⟨⟨by decide +kernel, ?_⟩, ⟨by decide +kernel, ?_⟩, C45_nearest_false.1, ?_⟩
  · rw [value_eq _ 1 (by decide)]; norm_num [abs_of_pos]
  · rw [value_eq _ 0 (by decide), value_eq _ 5000000000 (by decide +kernel),
      value_eq _ 9000000000000000000 (by decide +kernel)]
    norm_num [abs_of_pos, abs_of_neg]
  · have h := C45_nearest_false.2
    rw [value_eq (⟨1⟩ : FP .i64 0) 1 (by decide), value_eq (⟨0⟩ : FP .i64 0) 0 (by decide)] at *
    norm_num at *
    rw [abs_sub_comm]
    rcases abs_cases (f64Value 0x3FDCCCCCCCCCCCCD) with k | k <;>
    rcases abs_cases (f64Value 0x3FDCCCCCCCCCCCCD - 1) with j | j <;> linarith [k.1, j.1, k.2, j.2]

end Fixnum
