import Verif.FloatRoundTrip

/-! # Property C47: conversion to `f64` and back -/

namespace Fixnum

open Res Spec F64

variable {L : Layout} {P : Nat} {ε : Type}

/-- The raw values for which the round trip is proved: up to `2.2·10^15` for every precision, below
`4·10^15` for the precisions whose coefficient is a `f64` (all precisions of the layouts up to 64
bits). -/
def InRoundTripRange (P : Nat) (raw : ℚ) : Prop :=
  |raw| ≤ 22 * 10 ^ 14 ∨ (P ≤ 22 ∧ |raw| < 4 * 10 ^ 15)

/-- C47 (partial: not `MIN`).  In that range (more than `2^51` raw units below 23 digits) the
conversion to `f64` and back gives the same number. -/
theorem C47_round_trip_partial {cfg cfg' : Cfg} (hv : Valid cfg L P) (a : FP L P) (f : BitVec 64)
    (hf : (FP.toF64 cfg a : Res ε _) = .ok f) (hs : InRoundTripRange P (value a * 10 ^ P))
    (hm : value a ≠ minValue L P) : FP.tryFromF64 cfg' f = .ok a := by
  have hp : (0 : ℚ) < 10 ^ P := by positivity
  obtain ⟨-, hc', -, hP⟩ := valid_bounds hv a
  have hP38 : P ≤ 38 := by
    by_contra hn
    have h1 : (10 : Int) ^ 39 ≤ 10 ^ P := pow_le_pow_right₀ (by norm_num) (by omega)
    have h2 : (2 : Int) ^ 127 < 10 ^ 39 := by norm_num
    omega
  have hraw : value a * 10 ^ P = a.inner.toInt := by
    unfold value
    rw [div_mul_cancel₀ _ hp.ne']
  rw [hraw] at hs
  rcases lt_or_ge |a.inner.toInt| (10 ^ 15) with hlt | hge
  · refine round_trip_small hv a f hf ?_ hm
    have h1 : |value a| * 10 ^ P = |(a.inner.toInt : ℚ)| := by
      rw [← hraw, abs_mul, abs_of_pos hp]
    rw [h1]
    have : ((|a.inner.toInt| : Int) : ℚ) < 10 ^ 15 := by exact_mod_cast hlt
    push_cast at this
    refine this.le.trans (by norm_num)
  · have hfin : f64Finite f := by
      obtain ⟨g, h1, h2⟩ := C46_finite (ε := ε) hv a
      rw [hf] at h1
      cases h1
      exact h2
    obtain ⟨s1, s2, s3⟩ := C46_sign hv a f hf
    have hcore := hf
    rw [toF64_eq hv] at hcore
    injection hcore with hcore
    have hs' : |a.inner.toInt| ≤ 22 * 10 ^ 14 ∨ (P ≤ 22 ∧ |a.inner.toInt| < 4 * 10 ^ 15) := by
      unfold InRoundTripRange at hs
      rcases hs with h | ⟨h1, h2⟩
      · left; exact_mod_cast h
      · right; exact ⟨h1, by exact_mod_cast h2⟩
    have hw := core_window hP38 hs'
    rw [hcore, abs_f64Value] at hw
    have habs : ((a.inner.toInt.natAbs : Nat) : ℚ) = |(a.inner.toInt : ℚ)| := by
      rw [Nat.cast_natAbs, Int.cast_abs]
    rw [← habs] at hw
    have hna : ((a.inner.toInt.natAbs : Nat) : Int) = |a.inner.toInt| := Int.natCast_natAbs _
    have hn1 : 10 ^ 15 ≤ a.inner.toInt.natAbs := by omega
    have hn2 : a.inner.toInt.natAbs < 2 ^ 52 := by
      have : (2 : Nat) ^ 52 = 4503599627370496 := by norm_num
      rcases hs' with h | ⟨-, h⟩ <;> omega
    rw [recover (L := L) cfg' hfin hP hn1 hn2 hw]
    have hneg : f64Negative f ↔ a.inner.toInt < 0 := by
      have h1 : value a < 0 ↔ a.inner.toInt < 0 := by
        unfold value
        rw [div_neg_iff]
        constructor
        · rintro (⟨-, h⟩ | ⟨h, -⟩)
          · linarith
          · exact_mod_cast h
        · intro h
          right
          exact ⟨by exact_mod_cast h, hp⟩
      rw [← h1, ← s2]
      have hm0 : 0 < f64Magnitude f := by
        by_contra hn
        have h0 : f64Magnitude f = 0 := le_antisymm (not_lt.1 hn) (magnitude_nonneg f)
        rw [h0, zero_mul, abs_lt] at hw
        have : (10 : ℚ) ^ 15 ≤ (a.inner.toInt.natAbs : ℚ) := by exact_mod_cast hn1
        linarith [hw.1]
      unfold f64Value
      split
      · exact ⟨fun _ => by linarith, fun _ => by assumption⟩
      · exact ⟨fun h => absurd h (by assumption), fun h => by linarith⟩
    have hmin : a.inner.toInt ≠ rawMin L := by
      intro hc
      apply hm
      unfold value minValue
      rw [hc]
    have hfit := toInt_fits a.inner
    have hle : ((a.inner.toInt.natAbs : Nat) : Int) ≤ rawMax L := by
      have := half_pos L
      rw [fits_half] at hfit
      rw [rawMin_half] at hmin
      rw [rawMax_half]
      omega
    unfold finish
    rw [if_pos hle]
    by_cases hn : f64Negative f
    · have := hneg.1 hn
      rw [decide_eq_true hn, if_pos rfl, show -((a.inner.toInt.natAbs : Nat) : Int) =
        a.inner.toInt by omega, BitVec.ofInt_toInt]
    · have : ¬ a.inner.toInt < 0 := fun h => hn (hneg.2 h)
      rw [decide_eq_false hn, if_neg (by simp), show ((a.inner.toInt.natAbs : Nat) : Int) =
        a.inner.toInt by omega, BitVec.ofInt_toInt]

example := C47_round_trip_partial (ε := Unit) (cfg := debugCfg) (cfg' := releaseCfg) (by decide)
  (⟨13420000000⟩ : FP .i64 9) 0x402AD70A3D70A3D7 (by decide +kernel)
  (by unfold InRoundTripRange; decide +kernel) (by decide +kernel)

/-- C47 is false for `MIN`: `-327.68` becomes the right `f64`, which is rejected. -/
theorem C47_round_trip_false :
    (FP.toF64 debugCfg (FP.min : FP .i16 2) : Res Unit _) = .ok 0xC0747AE147AE147B ∧
    (FP.tryFromF64 debugCfg 0xC0747AE147AE147B : Res ConvErr (FP .i16 2)) =
      .err ⟨"too big number"⟩ := by decide +kernel

/-- Outside the range numbers are not recovered, with 15 digits from about `4.03·10^15` on, with 23
digits from about `2.98·10^15` on. -/
theorem C47_round_trip_outside_domain :
    (∃ f, (FP.toF64 debugCfg (⟨4026855639802148⟩ : FP .i64 15) : Res Unit _) = .ok f ∧
      (FP.tryFromF64 debugCfg f : Res ConvErr (FP .i64 15)) ≠ .ok ⟨4026855639802148⟩) ∧
    (∃ f, (FP.toF64 debugCfg (⟨2980256584971528⟩ : FP .i128 23) : Res Unit _) = .ok f ∧
      (FP.tryFromF64 debugCfg f : Res ConvErr (FP .i128 23)) ≠ .ok ⟨2980256584971528⟩) :=
  ⟨⟨f64Core 4026855639802148 (10 ^ 15), by decide +kernel, by decide +kernel⟩,
   ⟨f64Core 2980256584971528 (10 ^ 23), by decide +kernel, by decide +kernel⟩⟩

-- 3999999.999999999 and 13.42
example : Valid debugCfg .i64 9 ∧ InRoundTripRange 9 3999999999999999 ∧
    (∃ f, (FP.toF64 debugCfg (⟨3999999999999999⟩ : FP .i64 9) : Res Unit _) = .ok f ∧
      (FP.tryFromF64 debugCfg f : Res ConvErr (FP .i64 9)) = .ok ⟨3999999999999999⟩) ∧
    (FP.tryFromF64 debugCfg 0x402AD70A3D70A3D7 : Res ConvErr (FP .i64 9)) =
      .ok ⟨13420000000⟩ := by
  refine ⟨by decide +kernel, .inr ⟨by norm_num, by norm_num⟩,
    ⟨f64Core 3999999999999999 (10 ^ 9), by decide +kernel, by decide +kernel⟩, by decide +kernel⟩

end Fixnum
