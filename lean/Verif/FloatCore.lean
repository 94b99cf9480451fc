import Verif.FloatBasic
import Verif.FloatSpec

/-! # The conversion from `f64`, end to end -/

namespace Fixnum

open Res Spec F64

variable {L : Layout} {P : Nat} {ε : Type}

/-- Everything between taking the number `b·2^x` apart and the final range check,
`/repo/src/float.rs:51-169`. -/
def stages (cfg : Cfg) (P : Nat) (b : Nat) (x : Int) : Res ConvErr Nat := do
  let s ← scaleDown cfg ⟨b, -x, x⟩
  let s ← scaleUp cfg (-s.exponent5).toNat s
  let (bits, exponent10) ← trim cfg s.bits s.exponent10
  rescale cfg P bits exponent10

/-- The range check, `/repo/src/float.rs:171-181`. -/
def finish (L : Layout) (P : Nat) (neg : Bool) (r : Nat) : Res ConvErr (FP L P) :=
  if (r : Int) ≤ rawMax L then .ok ⟨BitVec.ofInt _ (if neg then -(r : Int) else r)⟩
  else .err ⟨"too big number"⟩

theorem bind_assoc_res {α β γ : Type} (m : Res ε α) (f : α → Res ε β) (g : β → Res ε γ) :
    (m >>= f) >>= g = m >>= fun a => f a >>= g := by
  cases m <;> rfl

/-- The significand as an integer, `/repo/src/float.rs:30-43`. -/
def f64Bits (f : BitVec 64) : Nat :=
  if f64Exponent f = 0 then f64Mantissa f else 2 ^ 52 + f64Mantissa f

/-- Its binary exponent, `/repo/src/float.rs:38-49`. -/
def f64Exp2 (f : BitVec 64) : Int :=
  if f64Exponent f = 0 then -1074 else (f64Exponent f : Int) - 1075

theorem f64Mantissa_lt (f : BitVec 64) : f64Mantissa f < 2 ^ 52 := Nat.mod_lt _ (by positivity)
theorem f64Exponent_lt (f : BitVec 64) : f64Exponent f < 2048 := Nat.mod_lt _ (by positivity)

theorem f64Bits_lt (f : BitVec 64) : f64Bits f < 2 ^ 53 := by
  have := f64Mantissa_lt f
  unfold f64Bits
  split <;> omega

theorem f64Exp2_range (f : BitVec 64) (h : f64Finite f) : -1074 ≤ f64Exp2 f ∧ f64Exp2 f ≤ 971 := by
  have := f64Exponent_lt f
  unfold f64Finite at h
  unfold f64Exp2
  split <;> omega

theorem f64Magnitude_eq (f : BitVec 64) : f64Magnitude f = f64Bits f * 2 ^ f64Exp2 f := by
  unfold f64Magnitude f64Bits f64Exp2
  split
  · rfl
  · push_cast; rfl

theorem isFinite_iff (f : BitVec 64) : isFinite f = true ↔ f64Finite f := by
  unfold isFinite f64Finite f64Exponent
  rw [Nat.shiftRight_eq_div_pow, show (0x7FF : Nat) = 2 ^ 11 - 1 by norm_num,
    Nat.and_two_pow_sub_one_eq_mod]
  simp

theorem finish_eq (neg : Bool) (r : Nat) :
    (do
      let v ← ofOption (⟨"too big number"⟩ : ConvErr) (SInt.tryFrom L.bits r)
      if (!neg) = true then .ok (FP.fromBits v)
      else do
        let n ← ofOption ⟨"too big number"⟩ (SInt.checkedNeg v)
        .ok (FP.fromBits n)) = finish L P neg r := by
  have hh := half_pos L
  unfold SInt.tryFrom finish
  by_cases h : (r : Int) ≤ rawMax L
  · have hf : Fits L.bits (r : Int) := by rw [fits_half]; rw [rawMax_half] at h; omega
    have hn : Fits L.bits (-(r : Int)) := by rw [fits_half]; rw [rawMax_half] at h; omega
    rw [SInt.checked_fits hf, ofOption_some, ok_bind, if_pos h]
    unfold SInt.checkedNeg
    rw [toInt_ofInt_of_fits (bits_pos L) hf, SInt.checked_fits hn]
    cases neg <;> rfl
  · have hf : ¬ Fits L.bits (r : Int) := by rw [fits_half]; rw [rawMax_half] at h; omega
    rw [SInt.checked_not hf, if_neg h]
    rfl

theorem shiftRight63 (f : BitVec 64) : (f.toNat >>> 63 == 0) = !decide (f64Negative f) := by
  unfold f64Negative
  rw [Nat.shiftRight_eq_div_pow]
  have := f.isLt
  by_cases h : 2 ^ 63 ≤ f.toNat
  · have : f.toNat / 2 ^ 63 = 1 := by
      apply Nat.div_eq_of_lt_le <;> omega
    rw [this, decide_eq_true h]; rfl
  · rw [Nat.div_eq_of_lt (by omega), decide_eq_false h]; rfl

theorem tryFromF64_eq (cfg : Cfg) (f : BitVec 64) (hf : f64Finite f) (h0 : f64Bits f ≠ 0) :
    (FP.tryFromF64 cfg f : Res ConvErr (FP L P)) =
      stages cfg P (f64Bits f) (f64Exp2 f) >>= finish L P (decide (f64Negative f)) := by
  have hfin := (isFinite_iff f).2 hf
  have hE : (f.toNat >>> 52) &&& 0x7FF = f64Exponent f := by
    unfold f64Exponent
    rw [Nat.shiftRight_eq_div_pow, show (0x7FF : Nat) = 2 ^ 11 - 1 by norm_num,
      Nat.and_two_pow_sub_one_eq_mod]
  have hM : f.toNat &&& 0x000FFFFFFFFFFFFF = f64Mantissa f := by
    unfold f64Mantissa
    rw [show (0x000FFFFFFFFFFFFF : Nat) = 2 ^ 52 - 1 by norm_num,
      Nat.and_two_pow_sub_one_eq_mod]
  have hm := f64Mantissa_lt f
  have hr := f64Exp2_range f hf
  have hel := f64Exponent_lt f
  have key : ((if (f64Exponent f : Int) = 0 then .ok (f64Mantissa f, -1022)
        else do
          let e ← i32 cfg ((f64Exponent f : Int) - 1023)
          .ok (f64Mantissa f ||| 0x0010000000000000, e)) : Res ConvErr (Nat × Int)) =
      .ok (f64Bits f, f64Exp2 f + 52) := by
    unfold f64Bits f64Exp2
    by_cases h : f64Exponent f = 0
    · rw [if_pos (by exact_mod_cast h), if_pos h, if_pos h]; rfl
    · rw [if_neg (by exact_mod_cast h), if_neg h, if_neg h, i32_ok cfg (by omega) (by omega),
        ok_bind, show (0x0010000000000000 : Nat) = 2 ^ 52 by norm_num, Nat.or_comm]
      have e := Nat.two_pow_add_eq_or_of_lt hm 1
      rw [mul_one] at e
      rw [← e]
      congr 2
      omega
  unfold FP.tryFromF64
  rw [hfin, Bool.not_true, if_neg (by simp)]
  dsimp only
  rw [hE, hM, shiftRight63]
  rw [if_neg (by
    rintro ⟨h1, h2⟩
    have h1 : f64Exponent f = 0 := by exact_mod_cast h1
    apply h0
    unfold f64Bits
    rw [if_pos h1, h2])]
  rw [key, ok_bind]
  dsimp only
  rw [show f64Exp2 f + 52 - 52 = f64Exp2 f by omega, i32_ok cfg (by omega) (by omega), ok_bind,
    i32_ok cfg (by omega) (by omega), ok_bind]
  unfold stages
  simp only [bind_assoc_res]
  congr 1; funext s; congr 1; funext s; congr 1; funext p; congr 1; funext r
  exact finish_eq _ _

/-- Stage result: `c·10^e` approximates `q` through the truncated number `y`. -/
theorem stages_scaled (cfg : Cfg) {b : Nat} {x : Int} (hb : 0 < b) (hb' : b < 2 ^ 53)
    (hx : -1100 ≤ x) (hx' : x ≤ 1000) :
    ∃ (c : Nat) (e : Int) (y : ℚ), (∀ P, stages cfg P b x = rescale cfg P c e) ∧ 0 < c ∧
      c < 2 ^ 128 ∧ -1100 ≤ e ∧ e ≤ 1000 ∧ (0 ≤ x → 0 ≤ e) ∧ Below 2200 (b * 2 ^ x) y ∧
      ((c * 10 ^ e = y) ∨
        (x < 0 ∧ e ≤ 0 ∧ y - 4 / 9 * 10 ^ e ≤ c * 10 ^ e ∧ c * 10 ^ e ≤ y + 5 / 9 * 10 ^ e ∧
          10 ^ e * 2 ^ 52 ≤ 10 * y)) := by
  have hp : (2 : Nat) ^ 53 < 2 ^ 128 := Nat.pow_lt_pow_right (by norm_num) (by norm_num)
  have hbq : (0 : ℚ) < b := by exact_mod_cast hb
  have hq : (0 : ℚ) ≤ b * 2 ^ x := by positivity
  have ham : amount ⟨b, -x, x⟩ = b * 2 ^ x := by
    unfold amount
    dsimp only
    rw [zpow_neg, mul_assoc, ← div_eq_mul_inv, ← div_zpow]
    norm_num
  by_cases h0 : 0 ≤ x
  · obtain ⟨t, t1, t2, t3, t4, t5, t6, t7⟩ := scaleUp_spec (ε := ConvErr) cfg x.toNat ⟨b, -x, x⟩ hb
      (by dsimp only; omega) (by dsimp only; omega) (by dsimp only; omega) (by dsimp only; omega)
      (by dsimp only; omega) (by dsimp only; omega)
    dsimp only at t5 t6 t7
    rw [ham] at t7
    refine ⟨t.bits, t.exponent10, amount t, ?_, t2, t3, by omega, by omega, fun _ => by omega,
      t7.mono hq (by omega), .inl ?_⟩
    · intro P
      unfold stages
      rw [scaleDown_nonpos cfg (by dsimp only; omega), ok_bind]
      dsimp only
      rw [neg_neg, t1, ok_bind, trim_skip cfg (by omega), ok_bind]
    · unfold amount; rw [t4, zpow_zero, mul_one]
  · obtain ⟨n, rfl⟩ : ∃ n : Nat, x = -(n : Int) := ⟨(-x).toNat, by omega⟩
    obtain ⟨t, t1, t2, t3, t4, t5, t6, t7⟩ := scaleDown_spec (ε := ConvErr) cfg hb hb'
      (show 0 < n by omega) (by omega)
    rw [neg_neg] at ham
    rw [ham] at t7
    have hs : ∀ P, stages cfg P b (-(n : Int)) =
        trim cfg t.bits t.exponent10 >>= fun p => rescale cfg P p.1 p.2 := by
      intro P
      unfold stages
      rw [neg_neg, t1, ok_bind, t4, neg_zero, Int.toNat_zero]
      unfold scaleUp
      rw [if_neg (by omega), ok_bind]
    have hat : amount t = t.bits * 10 ^ t.exponent10 := by
      unfold amount; rw [t4, zpow_zero, mul_one]
    by_cases htr : t.exponent10 < 0 ∧ 2 ^ 52 ≤ t.bits
    · obtain ⟨r, d, r1, r2, r3, r4, r5, r6, r7, -⟩ := trim_spec (ε := ConvErr) cfg htr.1 (by omega)
        htr.2 t3
      have hpe : (0 : ℚ) < 10 ^ (t.exponent10 + d) := by positivity
      have hdiv : (t.bits : ℚ) / 10 ^ d * 10 ^ (t.exponent10 + d) = amount t := by
        rw [hat, zpow_add₀ (by norm_num), zpow_natCast]
        field_simp
      have hr0 : 0 < r := by
        by_contra hc
        have : r = 0 := by omega
        rw [this] at r6
        have h9 : (10 : ℚ) ^ d * 2 ^ 52 ≤ 10 * t.bits := by exact_mod_cast r5
        have hd : (0 : ℚ) < 10 ^ d := by positivity
        have : (t.bits : ℚ) / 10 ^ d ≥ 2 ^ 52 / 10 := by
          rw [ge_iff_le, le_div_iff₀ hd]
          linarith
        norm_num at this r6
        linarith
      refine ⟨r, t.exponent10 + d, amount t, ?_, hr0, by omega, by omega, by omega,
        fun h => by omega, t7.mono hq (by omega), .inr ⟨by omega, r3, ?_, ?_, ?_⟩⟩
      · intro P; rw [hs, r1, ok_bind]
      · rw [← hdiv, ← sub_mul]
        exact mul_le_mul_of_nonneg_right r6 hpe.le
      · rw [← hdiv, ← add_mul]
        exact mul_le_mul_of_nonneg_right r7.le hpe.le
      · rw [hat, zpow_add₀ (by norm_num), zpow_natCast]
        have h9 : (10 : ℚ) ^ d * 2 ^ 52 ≤ 10 * t.bits := by exact_mod_cast r5
        have h10 : (0 : ℚ) < 10 ^ t.exponent10 := by positivity
        nlinarith
    · refine ⟨t.bits, t.exponent10, amount t, ?_, t2, t3, by omega, by omega, fun h => by omega,
        t7.mono hq (by omega), .inl hat.symm⟩
      intro P; rw [hs, trim_skip cfg htr, ok_bind]

/-- The accumulated relative error of the lossy steps. -/
def tiny : ℚ := 2200 * stepErr

theorem tiny_lt : tiny < 1 / 10 ^ 34 := by unfold tiny stepErr; norm_num

/-- How the raw result `r` (before the range check) approximates `Q = q·10^P`. -/
def Approximates (Q : ℚ) (r : Nat) : Prop :=
  ∃ Y : ℚ, Y ≤ Q ∧ Q * (1 - tiny) ≤ Y ∧
    ((Y - 4 / 9 ≤ r ∧ r ≤ Y + 5 / 9) ∨
     (∃ u : ℚ, 10 ≤ u ∧ u * 2 ^ 52 ≤ 10 * Y ∧ Y - 4 / 9 * u ≤ r ∧ r ≤ Y + 5 / 9 * u) ∨
     (∃ u : ℚ, 0 < u ∧ u ≤ 1 / 10 ∧ u * 2 ^ 52 ≤ 10 * Y ∧ Y - 4 / 9 * u - 4 / 9 ≤ r ∧
      r ≤ Y + 5 / 9 * u + 5 / 9))

theorem stages_spec (cfg : Cfg) {b : Nat} {x : Int} (hb : 0 < b) (hb' : b < 2 ^ 53)
    (hx : -1100 ≤ x) (hx' : x ≤ 1000) (hP : P ≤ 10 ^ 9) :
    ∃ r : Nat, Approximates (b * 2 ^ x * 10 ^ P) r ∧
      (r < 2 ^ 128 → stages cfg P b x = .ok r) ∧
      (2 ^ 128 ≤ r → stages cfg P b x = .err ⟨"too big number"⟩) := by
  obtain ⟨c, e, y, h1, h2, h3, h4, h5, -, h6, h7⟩ := stages_scaled cfg hb hb' hx hx'
  have hpP : (0 : ℚ) < 10 ^ P := by positivity
  have hY : y * 10 ^ P ≤ b * 2 ^ x * 10 ^ P := mul_le_mul_of_nonneg_right h6.1 hpP.le
  have hY' : b * 2 ^ x * 10 ^ P * (1 - tiny) ≤ y * 10 ^ P := by
    have := mul_le_mul_of_nonneg_right h6.2 hpP.le
    unfold tiny
    push_cast at this
    linarith
  have hz : ∀ v : ℚ, v * 10 ^ e * 10 ^ P = v * 10 ^ (e + P) := by
    intro v
    rw [zpow_add₀ (by norm_num), zpow_natCast]; ring
  have hz1 := hz 1
  rw [one_mul, one_mul] at hz1
  obtain ⟨u, hu⟩ : ∃ u : ℚ, u = 10 ^ (e + P) := ⟨_, rfl⟩
  rw [← hu] at hz hz1
  have hu0 : 0 < u := by rw [hu]; positivity
  have h7' : (c * u = y * 10 ^ P) ∨ (y * 10 ^ P - 4 / 9 * u ≤ c * u ∧
      c * u ≤ y * 10 ^ P + 5 / 9 * u ∧ u * 2 ^ 52 ≤ 10 * (y * 10 ^ P)) := by
    rcases h7 with h7 | ⟨-, -, h7, h8, h9⟩
    · left; rw [← h7, hz]
    · right
      have e1 := hz c
      refine ⟨?_, ?_, ?_⟩ <;> rw [← hz1] <;> nlinarith
  by_cases hdown : e < -(P : Int)
  · obtain ⟨r, r1, r2, r3, r4⟩ := rescale_down cfg (P := P) hP (by omega) h3 hdown
    rw [← hu] at r3 r4
    refine ⟨r, ⟨y * 10 ^ P, hY, hY', ?_⟩, fun _ => by rw [h1, r1], fun h => by omega⟩
    rcases h7' with h7 | ⟨h7, h8, h9⟩
    · left
      rw [h7] at r3 r4
      exact ⟨r3, r4.le⟩
    · right; right
      refine ⟨u, hu0, ?_, h9, by linarith, by linarith⟩
      rw [hu]
      calc (10 : ℚ) ^ (e + P) ≤ 10 ^ (-1 : Int) := zpow_le_zpow_right₀ (by norm_num) (by omega)
        _ = 1 / 10 := by norm_num
  · obtain ⟨k, hk⟩ : ∃ k : Nat, e + P = k := ⟨(e + P).toNat, by omega⟩
    obtain ⟨r1, r2⟩ := rescale_up cfg (P := P) hP (by omega) h3 (show -(P : Int) ≤ e by omega)
    rw [hk, Int.toNat_natCast] at r1 r2
    have hue : u = 10 ^ k := by rw [hu, hk, zpow_natCast]
    have hru : ((c * 10 ^ k : Nat) : ℚ) = c * u := by rw [hue]; push_cast; rfl
    have hk39 : c * 10 ^ k < 2 ^ 128 → k < 39 := by
      intro h
      by_contra hn
      have h1 : 10 ^ 39 ≤ 10 ^ k := Nat.pow_le_pow_right (by norm_num) (not_lt.1 hn)
      have h2 : 10 ^ k ≤ c * 10 ^ k := Nat.le_mul_of_pos_left _ h2
      have h3 : (2 : Nat) ^ 128 < 10 ^ 39 := by norm_num
      omega
    refine ⟨c * 10 ^ k, ⟨y * 10 ^ P, hY, hY', ?_⟩, fun h => by rw [h1, r1 h (hk39 h)],
      fun h => by rw [h1, r2 (by omega)]⟩
    rw [hru]
    rcases h7' with h7 | ⟨h7, h8, h9⟩
    · left; constructor <;> linarith
    · rcases Nat.eq_zero_or_pos k with h0 | h0
      · left
        rw [h0, pow_zero] at hue
        rw [hue] at h7 h8 ⊢
        constructor <;> linarith
      · right; left
        refine ⟨u, ?_, h9, h7, h8⟩
        rw [hue]
        calc (10 : ℚ) = 10 ^ 1 := by norm_num
          _ ≤ 10 ^ k := pow_le_pow_right₀ (by norm_num) h0

/-- The conversion of a finite number: a natural number `r` near the scaled absolute value, then the
range check and the sign. -/
theorem tryFromF64_spec (cfg : Cfg) (L : Layout) (f : BitVec 64) (hf : f64Finite f)
    (hP : P ≤ 10 ^ 9) :
    ∃ r : Nat, Approximates (f64Magnitude f * 10 ^ P) r ∧
      (FP.tryFromF64 cfg f : Res ConvErr (FP L P)) = finish L P (decide (f64Negative f)) r := by
  by_cases h0 : f64Bits f = 0
  · refine ⟨0, ⟨0, ?_, ?_, .inl ⟨by norm_num, by norm_num⟩⟩, ?_⟩
    · rw [f64Magnitude_eq, h0]; simp
    · rw [f64Magnitude_eq, h0]; simp
    · have hz : f64Exponent f = 0 ∧ f64Mantissa f = 0 := by
        unfold f64Bits at h0
        split at h0
        · exact ⟨by assumption, h0⟩
        · omega
      unfold FP.tryFromF64 finish
      rw [(isFinite_iff f).2 hf, Bool.not_true, if_neg (by simp)]
      dsimp only
      have hE : (f.toNat >>> 52) &&& 0x7FF = f64Exponent f := by
        unfold f64Exponent
        rw [Nat.shiftRight_eq_div_pow, show (0x7FF : Nat) = 2 ^ 11 - 1 by norm_num,
          Nat.and_two_pow_sub_one_eq_mod]
      have hM : f.toNat &&& 0x000FFFFFFFFFFFFF = f64Mantissa f := by
        unfold f64Mantissa
        rw [show (0x000FFFFFFFFFFFFF : Nat) = 2 ^ 52 - 1 by norm_num,
          Nat.and_two_pow_sub_one_eq_mod]
      have := half_pos L
      rw [hE, hM, hz.1, hz.2, if_pos ⟨rfl, rfl⟩, if_pos (by rw [rawMax_half]; push_cast; omega)]
      simp [FP.zero, FP.fromBits]
  · obtain ⟨h1, h2⟩ := f64Exp2_range f hf
    obtain ⟨r, r1, r2, r3⟩ := stages_spec cfg (P := P) (Nat.pos_of_ne_zero h0) (f64Bits_lt f)
      (show -1100 ≤ f64Exp2 f by omega) (by omega) hP
    refine ⟨r, by rw [f64Magnitude_eq]; exact r1, ?_⟩
    rw [tryFromF64_eq cfg f hf h0]
    by_cases hr : r < 2 ^ 128
    · rw [r2 hr, ok_bind]
    · rw [r3 (not_lt.1 hr), err_bind]
      unfold finish
      rw [if_neg]
      have h4 : rawMax L < 2 ^ 128 := by cases L <;> decide
      have h5 : (2 : Int) ^ 128 ≤ r := by exact_mod_cast not_lt.1 hr
      omega

end Fixnum
