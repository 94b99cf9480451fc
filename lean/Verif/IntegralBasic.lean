import Verif.OpsBasic

/-! # Raw-level specifications of `half_sum`, `integral` and the decimal constructors -/

namespace Fixnum

open Res Spec

variable {L : Layout} {P : Nat} {ε : Type}

/-! ## half_sum -/

theorem tmod_two_abs (n : Int) : |n.tmod 2| ≤ 1 := by
  have := tmod_abs_lt n (show (2:Int) ≠ 0 by norm_num)
  rw [abs_of_pos (show (0:Int) < 2 by norm_num)] at this
  omega

theorem two_fits (L : Layout) : Fits L.bits 2 := by
  have := half_pos L; rw [fits_half]; omega

/-- Integer division by two never fails. -/
theorem intRdiv_two (cfg : Cfg) (a : BitVec L.bits) (mode : RoundMode) :
    SInt.rdiv cfg a (BitVec.ofInt _ 2) mode = .ok (BitVec.ofInt _ (roundDiv mode a.toInt 2)) ∧
      Fits L.bits (roundDiv mode a.toInt 2) := by
  have hb := bits_ge L
  have h2 : (BitVec.ofInt L.bits 2).toInt = 2 := toInt_ofInt_of_fits (by omega) (two_fits L)
  have := intRdiv_spec (by omega) cfg a (BitVec.ofInt _ 2) mode (by rw [h2]; norm_num)
    (by rw [h2]; rintro ⟨_, h⟩; omega)
    (by
      rw [h2]
      intro _ _
      have h1 := tmod_two_abs a.toInt
      have h3 := half_pos L
      unfold half at h3
      unfold iMax iMin
      omega)
  rwa [h2] at this

/-- The raw result of `half_sum`. -/
def halfSumRaw (mode : RoundMode) (a b : Int) : Int :=
  if a.sign ≠ b.sign then roundDiv mode (a + b) 2
  else min a b + roundDiv mode (max a b - min a b) 2

theorem roundDiv_two_nonneg (mode : RoundMode) {n : Int} (h : 0 ≤ n) :
    0 ≤ roundDiv mode n 2 ∧ roundDiv mode n 2 ≤ n := by
  rw [← round_div mode n (by norm_num)]
  constructor
  · have h1 := round_mono mode (q := ((0 : Int) : ℚ)) (r := (n : ℚ) / ((2 : Int) : ℚ))
      (by push_cast; have : (0 : ℚ) ≤ n := by exact_mod_cast h
          positivity)
    rwa [round_int] at h1
  · have h1 := round_mono mode (r := ((n : Int) : ℚ)) (q := (n : ℚ) / ((2 : Int) : ℚ))
      (by push_cast; have : (0 : ℚ) ≤ n := by exact_mod_cast h
          linarith)
    rwa [round_int] at h1

theorem sign_same_sub {a b h : Int} (hs : a.sign = b.sign) (ha : -h ≤ a) (ha' : a ≤ h - 1)
    (hb : -h ≤ b) (hb' : b ≤ h - 1)  : max a b - min a b ≤ h - 1 := by
  rcases lt_trichotomy a 0 with h1 | h1 | h1 <;> rcases lt_trichotomy b 0 with h2 | h2 | h2
  all_goals
    first
    | rw [Int.sign_eq_neg_one_of_neg h1] at hs
    | rw [Int.sign_eq_one_of_pos h1] at hs
    | rw [h1, Int.sign_zero] at hs
  all_goals
    first
    | rw [Int.sign_eq_neg_one_of_neg h2] at hs
    | rw [Int.sign_eq_one_of_pos h2] at hs
    | rw [h2, Int.sign_zero] at hs
  all_goals omega

theorem sign_diff_add {a b h : Int} (hs : a.sign ≠ b.sign) (ha : -h ≤ a) (ha' : a ≤ h - 1)
    (hb : -h ≤ b) (hb' : b ≤ h - 1) : -h ≤ a + b ∧ a + b ≤ h - 1 := by
  rcases lt_trichotomy a 0 with h1 | h1 | h1 <;> rcases lt_trichotomy b 0 with h2 | h2 | h2
  all_goals
    first
    | rw [Int.sign_eq_neg_one_of_neg h1] at hs
    | rw [Int.sign_eq_one_of_pos h1] at hs
    | rw [h1, Int.sign_zero] at hs
  all_goals
    first
    | rw [Int.sign_eq_neg_one_of_neg h2] at hs
    | rw [Int.sign_eq_one_of_pos h2] at hs
    | rw [h2, Int.sign_zero] at hs
  all_goals omega

theorem halfSum_spec (cfg : Cfg) (a b : FP L P) (mode : RoundMode) :
    (FP.halfSum cfg a b mode : Res ε (FP L P)) =
      .ok ⟨BitVec.ofInt _ (halfSumRaw mode a.inner.toInt b.inner.toInt)⟩ ∧
    Fits L.bits (halfSumRaw mode a.inner.toInt b.inner.toInt) := by
  have hb := bits_ge L
  have hw : 0 < L.bits := by omega
  have fa := (fits_half L _).1 (toInt_fits a.inner)
  have fb := (fits_half L _).1 (toInt_fits b.inner)
  have hh := half_pos L
  have hs : SInt.signum a.inner ≠ SInt.signum b.inner ↔ a.inner.toInt.sign ≠ b.inner.toInt.sign := by
    rw [not_iff_not]
    constructor
    · intro h
      have := congrArg BitVec.toInt h
      rwa [SInt.signum_toInt (by omega), SInt.signum_toInt (by omega)] at this
    · intro h; unfold SInt.signum; rw [h]
  unfold FP.halfSum halfSumRaw
  by_cases h : a.inner.toInt.sign ≠ b.inner.toInt.sign
  · rw [if_pos (hs.2 h), if_pos h]
    have hf : Fits L.bits (a.inner.toInt + b.inner.toInt) :=
      (fits_half L _).2 (sign_diff_add h fa.1 fa.2 fb.1 fb.2)
    unfold SInt.add
    rw [SInt.arith_fits cfg hf, ok_bind]
    unfold FP.rdivInt FP.fromBits
    have := intRdiv_two cfg (BitVec.ofInt L.bits (a.inner.toInt + b.inner.toInt)) mode
    rw [toInt_ofInt_of_fits hw hf] at this
    rw [this.1]
    exact ⟨rfl, this.2⟩
  · rw [if_neg (fun hc => h (hs.1 hc)), if_neg h]
    have hmn : (if b.inner.toInt < a.inner.toInt then b.inner else a.inner).toInt =
        min a.inner.toInt b.inner.toInt := by
      split <;> omega
    have hmx : (if b.inner.toInt < a.inner.toInt then a.inner else b.inner).toInt =
        max a.inner.toInt b.inner.toInt := by
      split <;> omega
    have hd := sign_same_sub (not_not.1 h) fa.1 fa.2 fb.1 fb.2
    have hd0 : 0 ≤ max a.inner.toInt b.inner.toInt - min a.inner.toInt b.inner.toInt := by omega
    have hf : Fits L.bits (max a.inner.toInt b.inner.toInt - min a.inner.toInt b.inner.toInt) :=
      (fits_half L _).2 (by omega)
    dsimp only
    unfold SInt.sub SInt.add
    rw [hmn, hmx, SInt.arith_fits cfg hf, ok_bind]
    have h2 := intRdiv_two cfg (BitVec.ofInt L.bits
      (max a.inner.toInt b.inner.toInt - min a.inner.toInt b.inner.toInt)) mode
    rw [toInt_ofInt_of_fits hw hf] at h2
    have h3 := roundDiv_two_nonneg mode hd0
    have hf3 : Fits L.bits (min a.inner.toInt b.inner.toInt +
        roundDiv mode (max a.inner.toInt b.inner.toInt - min a.inner.toInt b.inner.toInt) 2) :=
      (fits_half L _).2 (by omega)
    rw [h2.1, unwrap_ok, ok_bind, toInt_ofInt_of_fits hw h2.2, SInt.arith_fits cfg hf3, ok_bind]
    exact ⟨rfl, hf3⟩

/-! ## integral -/

theorem abs_tmod {a c : Int} : |a|.tmod c = |a.tmod c| := by
  rcases le_total 0 a with h | h
  · rw [abs_of_nonneg h, abs_of_nonneg (tmod_nonneg' c h)]
  · rw [abs_of_nonpos h, Int.neg_tmod, abs_of_nonpos (tmod_nonpos' c h)]

theorem abs_tdiv_le' (a c : Int) : |a.tdiv c| * |c| ≤ |a| := by
  rw [Int.abs_eq_natAbs, Int.abs_eq_natAbs, Int.abs_eq_natAbs, Int.natAbs_tdiv]
  exact_mod_cast Nat.div_mul_le_self _ _

theorem integral_of_test {cfg : Cfg} (hv : Valid cfg L P) (a : FP L P) (mode : RoundMode)
    (hm : a.inner.toInt ≠ rawMin L) :
    (FP.integral cfg a mode : Res ε _) =
      (FP.integralTest cfg (BitVec.ofInt L.bits (10 ^ P))
        (BitVec.ofInt _ |a.inner.toInt.tmod (10 ^ P)|)
        (BitVec.ofInt _ a.inner.toInt.sign) mode : Res ε Bool).bind fun t =>
        if t = true then SInt.add cfg (BitVec.ofInt _ (a.inner.toInt.tdiv (10 ^ P)))
          (BitVec.ofInt _ a.inner.toInt.sign)
        else .ok (BitVec.ofInt _ (a.inner.toInt.tdiv (10 ^ P))) := by
  have hc := coef_toInt hv
  have hw := bits_pos L
  have hpos : (1 : Int) ≤ 10 ^ P := one_le_pow₀ (by norm_num)
  have fa := toInt_fits a.inner
  have hfq : ∀ z : Int, Fits L.bits z → Fits L.bits (z.tdiv (10 ^ P)) := by
    intro z hz
    rcases le_or_gt 0 z with h | h
    · have h1 := Int.tdiv_nonneg h (show (0:Int) ≤ 10 ^ P by omega)
      have h2 := abs_tdiv_le' z (10 ^ P)
      rw [abs_of_nonneg h1, abs_of_nonneg h, abs_of_pos (by omega)] at h2
      have h3 : z.tdiv (10 ^ P) ≤ z := le_trans (le_mul_of_one_le_right h1 hpos) h2
      rw [fits_half] at *; have := half_pos L; omega
    · have h1 : z.tdiv (10 ^ P) ≤ 0 := by
        have := Int.tdiv_nonneg (show 0 ≤ -z by omega) (show (0:Int) ≤ 10 ^ P by omega)
        rw [Int.neg_tdiv] at this; omega
      have h2 := abs_tdiv_le' z (10 ^ P)
      rw [abs_of_nonpos h1, abs_of_neg h, abs_of_pos (show (0:Int) < 10 ^ P by omega)] at h2
      have h3 : -z.tdiv (10 ^ P) ≤ -z :=
        le_trans (le_mul_of_one_le_right (by omega) hpos) h2
      rw [fits_half] at *; have := half_pos L; omega
  have hab : Fits L.bits |a.inner.toInt| := abs_fits fa hm
  unfold FP.integral
  rw [coef_spec hv, ok_bind]
  dsimp only
  unfold SInt.div SInt.abs SInt.rem
  have hne : (10 : Int) ^ P ≠ 0 := by omega
  rw [hc, if_neg hne, if_pos (hfq _ fa), ok_bind, SInt.arith_fits cfg hab, ok_bind,
    toInt_ofInt_of_fits hw hab, if_neg hne, if_pos (hfq _ hab), ok_bind, abs_tmod]
  rfl

theorem integralTest_spec {cfg : Cfg} (hv : Valid cfg L P) (n : Int) (mode : RoundMode)
    (hn : mode = .nearest → 2 * |n.tmod (10 ^ P)| ≤ rawMax L) :
    (FP.integralTest cfg (BitVec.ofInt L.bits (10 ^ P)) (BitVec.ofInt _ |n.tmod (10 ^ P)|)
      (BitVec.ofInt _ n.sign) mode : Res ε Bool) =
      .ok (decide (lossTest mode (n.tmod (10 ^ P)) (10 ^ P) n.sign)) := by
  have hc := coef_toInt hv
  have hw := bits_pos L
  have hb := bits_gt L
  have hpos : (1 : Int) ≤ 10 ^ P := one_le_pow₀ (by norm_num)
  have h1 := tmod_abs_lt n (show (10:Int) ^ P ≠ 0 by omega)
  rw [abs_of_pos (show (0:Int) < 10 ^ P by omega)] at h1
  have h0 := abs_nonneg (n.tmod (10 ^ P))
  have hfr : Fits L.bits |n.tmod (10 ^ P)| := by
    have := hv.1; rw [rawMax_half] at this; rw [fits_half]; have := half_pos L; omega
  have hsg : Fits L.bits n.sign := SInt.sign_fits (by omega) n
  have hs3 : n.sign = 1 ∨ n.sign = 0 ∨ n.sign = -1 := by
    rcases lt_trichotomy n 0 with h | h | h
    · right; right; exact Int.sign_eq_neg_one_of_neg h
    · right; left; rw [h]; rfl
    · left; exact Int.sign_eq_one_of_pos h
  unfold FP.integralTest
  cases mode with
  | nearest =>
    have h2 := hn rfl
    have hf2 : Fits L.bits (|n.tmod (10 ^ P)| + |n.tmod (10 ^ P)|) := by
      rw [rawMax_half] at h2; rw [fits_half]; have := half_pos L; omega
    rw [if_pos rfl]
    unfold SInt.add
    rw [toInt_ofInt_of_fits hw hfr, SInt.arith_fits cfg hf2, ok_bind, hc,
      toInt_ofInt_of_fits hw hf2]
    congr 1
    apply decide_eq_decide.2
    show _ ↔ |(10 : Int) ^ P| ≤ 2 * |n.tmod (10 ^ P)|
    rw [abs_of_pos (show (0:Int) < 10 ^ P by omega), two_mul]
  | ceil =>
    rw [if_neg (by decide), cast32_sign (by rw [toInt_ofInt_of_fits hw hsg]; exact hs3),
      toInt_ofInt_of_fits hw hsg, toInt_ofInt_of_fits hw hfr, ← Bool.decide_and]
    congr 1
    apply decide_eq_decide.2
    show 1 = n.sign ∧ 0 < _ ↔ n.tmod (10 ^ P) ≠ 0 ∧ n.sign = 1
    rw [abs_pos]
    tauto
  | floor =>
    rw [if_neg (by decide), cast32_sign (by rw [toInt_ofInt_of_fits hw hsg]; exact hs3),
      toInt_ofInt_of_fits hw hsg, toInt_ofInt_of_fits hw hfr, ← Bool.decide_and]
    congr 1
    apply decide_eq_decide.2
    show -1 = n.sign ∧ 0 < _ ↔ n.tmod (10 ^ P) ≠ 0 ∧ n.sign = -1
    rw [abs_pos]
    tauto

/-- `integral` rounds the raw value divided by `10^P`. -/
theorem integral_spec {cfg : Cfg} (hv : Valid cfg L P) (a : FP L P) (mode : RoundMode)
    (hm : a.inner.toInt ≠ rawMin L)
    (hn : mode = .nearest → 2 * |a.inner.toInt.tmod (10 ^ P)| ≤ rawMax L) :
    (FP.integral cfg a mode : Res ε _) =
      .ok (BitVec.ofInt _ (roundDiv mode a.inner.toInt (10 ^ P))) ∧
      Fits L.bits (roundDiv mode a.inner.toInt (10 ^ P)) := by
  have hw := bits_pos L
  have hb := bits_ge L
  have hpos : (1 : Int) ≤ 10 ^ P := one_le_pow₀ (by norm_num)
  have hc := coef_toInt hv
  have hmin : ¬ (a.inner.toInt = iMin L.bits ∧ (BitVec.ofInt L.bits (10 ^ P)).toInt = -1) := by
    rw [hc]; rintro ⟨_, h⟩; omega
  have hfq := tdiv_fits (by omega) a.inner (BitVec.ofInt L.bits (10 ^ P)) hmin
  rw [hc] at hfq
  rw [integral_of_test hv a mode hm, integralTest_spec hv _ mode hn, bind_ok']
  have hsg : Fits L.bits a.inner.toInt.sign := SInt.sign_fits (by omega) _
  unfold roundDiv
  rw [loss_eq, Int.sign_eq_one_of_pos (show (0:Int) < 10 ^ P by omega), mul_one]
  by_cases ht : lossTest mode (a.inner.toInt.tmod (10 ^ P)) (10 ^ P) a.inner.toInt.sign
  · rw [decide_eq_true ht, if_pos rfl, if_pos ht]
    have hl : a.inner.toInt.tmod (10 ^ P) ≠ 0 := by
      cases mode with
      | nearest =>
        have h1 : |(10 : Int) ^ P| ≤ 2 * |a.inner.toInt.tmod (10 ^ P)| := ht
        intro h; rw [h, abs_of_pos (show (0:Int) < 10 ^ P by omega), abs_zero] at h1; omega
      | ceil => exact ht.1
      | floor => exact ht.1
    have hst := tdiv_step_fits (by omega) a.inner (BitVec.ofInt L.bits (10 ^ P))
      (by rw [hc]; omega) (by rw [hc]; exact hl)
    rw [hc, Int.sign_eq_one_of_pos (show (0:Int) < 10 ^ P by omega), mul_one] at hst
    unfold SInt.add
    rw [toInt_ofInt_of_fits hw hfq, toInt_ofInt_of_fits hw hsg, SInt.arith_fits cfg hst]
    exact ⟨rfl, hst⟩
  · rw [decide_eq_false ht, if_neg (by simp), if_neg ht, add_zero]
    exact ⟨rfl, hfq⟩

/-! ## from_decimal -/

theorem fromDecimal_spec (cfg : Cfg) (m : BitVec L.bits) (e : Int)
    (he : -(P : Int) ≤ e ∧ e ≤ 10) (hp : (10 : Int) ^ (e + P).toNat ≤ rawMax L) :
    (FP.fromDecimal cfg m e : Res ConvErr (FP L P)) =
      if Fits L.bits (m.toInt * 10 ^ (e + P).toNat) then
        .ok ⟨BitVec.ofInt _ (m.toInt * 10 ^ (e + P).toNat)⟩
      else .err ⟨"too big mantissa"⟩ := by
  have hw := bits_pos L
  have hpos : (1 : Int) ≤ 10 ^ (e + P).toNat := one_le_pow₀ (by norm_num)
  have h10 : (BitVec.ofInt L.bits 10).toInt = 10 := by
    apply toInt_ofInt_of_fits hw
    have := half_pos L; rw [fits_half]; omega
  have hf : Fits L.bits (10 ^ (e + P).toNat) := by
    have := half_pos L; rw [fits_half]; rw [rawMax_half] at hp; omega
  unfold FP.fromDecimal
  rw [if_neg (by omega)]
  unfold SInt.pow
  rw [h10, SInt.arith_fits cfg hf, ok_bind]
  unfold SInt.checkedMul SInt.checked
  rw [toInt_ofInt_of_fits hw hf]
  by_cases h : Fits L.bits (m.toInt * 10 ^ (e + P).toNat)
  · rw [if_pos h, if_pos h, ofOption_some, ok_bind]; rfl
  · rw [if_neg h, if_neg h, ofOption_none, err_bind]

theorem fromDecimal_zero {cfg : Cfg} (hv : Valid cfg L P) (m : BitVec L.bits) :
    (FP.fromDecimal cfg m 0 : Res ConvErr (FP L P)) =
      if Fits L.bits (m.toInt * 10 ^ P) then .ok ⟨BitVec.ofInt _ (m.toInt * 10 ^ P)⟩
      else .err ⟨"too big mantissa"⟩ := by
  have h := fromDecimal_spec (P := P) cfg m 0 (by omega)
    (by rw [show ((0 : Int) + P).toNat = P by omega]; exact hv.1)
  rwa [show ((0 : Int) + P).toNat = P by omega] at h

end Fixnum
