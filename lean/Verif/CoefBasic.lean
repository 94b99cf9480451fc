import Verif.ConstFn
import Verif.SpecBasic
import Verif.PromBasic
import Mathlib.Tactic.IntervalCases

/-! # The coefficient constants are `±10^P` for every valid precision -/

namespace Fixnum

open Res Spec

variable {ε : Type}

theorem pow10Loop_spec (cfg : Cfg) (k : Nat) : ∀ (r : BitVec (intBits cfg)), 0 ≤ r.toInt →
    r.toInt * 10 ^ k ≤ iMax (intBits cfg) →
    (pow10Loop cfg k r : Res ε _) = .ok (BitVec.ofInt _ (r.toInt * 10 ^ k)) := by
  have hb : 0 < intBits cfg := by unfold intBits; split <;> norm_num
  have h10 : (BitVec.ofInt (intBits cfg) 10).toInt = 10 := by
    apply toInt_ofInt_of_fits hb
    unfold intBits Fits iMin iMax; split <;> norm_num
  induction k with
  | zero => intro r _ _; simp [pow10Loop]
  | succ k ih =>
    intro r h0 h
    have hp : (1 : Int) ≤ 10 ^ k := one_le_pow₀ (by norm_num)
    have e : r.toInt * 10 ^ (k + 1) = r.toInt * 10 * 10 ^ k := by ring
    rw [e] at h ⊢
    have hf : Fits (intBits cfg) (r.toInt * 10) := by
      constructor
      · have : (0 : Int) < 2 ^ (intBits cfg - 1) := by positivity
        unfold iMin; linarith
      · nlinarith
    unfold pow10Loop SInt.mul
    rw [h10, SInt.arith_fits cfg hf, ok_bind]
    have e2 := toInt_ofInt_of_fits hb hf
    rw [ih _ (by rw [e2]; linarith) (by rw [e2]; exact h), e2]

theorem pow10_small (cfg : Cfg) {P : Nat} (hP : P < 19) :
    (pow10 cfg P : Res ε _) = .ok (BitVec.ofInt _ (10 ^ P)) := by
  unfold pow10
  rw [if_pos hP]
  interval_cases P <;> rfl

theorem ten_pow_lt_19 {L : Layout} {P : Nat} (h : (10 : Int) ^ P ≤ rawMax L) (hL : L ≠ .i128) :
    P < 19 := by
  by_contra hc
  have h1 : (10 : Int) ^ 19 ≤ 10 ^ P := pow_le_pow_right₀ (by norm_num) (by omega)
  have h2 : rawMax L < 10 ^ 19 := by
    cases L
    · decide
    · decide
    · decide
    · exact absurd rfl hL
  omega

theorem coef_spec {cfg : Cfg} {L : Layout} {P : Nat} (hv : Valid cfg L P) :
    (coef cfg L P : Res ε _) = .ok (BitVec.ofInt L.bits (10 ^ P)) := by
  obtain ⟨h1, h2⟩ := hv
  have hb : 0 < intBits cfg := by unfold intBits; split <;> norm_num
  unfold coef
  by_cases hP : P < 19
  · rw [pow10_small cfg hP, ok_bind]
    unfold SInt.cast
    rw [toInt_ofInt_of_fits hb]
    have : (10 : Int) ^ P ≤ 10 ^ 18 := pow_le_pow_right₀ (by norm_num) (by omega)
    have h0 : (0 : Int) < 10 ^ P := by positivity
    unfold intBits Fits iMin iMax
    split <;> norm_num <;> omega
  · have hL : L = .i128 := by
      by_contra hc; exact hP (ten_pow_lt_19 h1 hc)
    subst hL
    have hc := h2 rfl
    have hib : intBits cfg = 128 := by unfold intBits; simp [hc]
    have h18 : (BitVec.ofInt (intBits cfg) (10 ^ 18)).toInt = 10 ^ 18 := by
      apply toInt_ofInt_of_fits hb
      rw [hib]; decide
    have ep : (10 : Int) ^ 18 * 10 ^ (P - 19 + 1) = 10 ^ P := by
      rw [← pow_add]; congr 1; omega
    have hfit : Fits (intBits cfg) (10 ^ P) := by
      rw [hib]
      refine ⟨?_, h1⟩
      have h0 : (0 : Int) < 10 ^ P := by positivity
      have : iMin 128 ≤ 0 := by decide
      linarith
    unfold pow10
    rw [if_neg hP]
    have hi : (idx pow10Table 18 : Res ε Int) = .ok (10 ^ 18) := rfl
    rw [hi, ok_bind, pow10Loop_spec cfg _ _ (by rw [h18]; norm_num)
      (by rw [h18, ep]; exact hfit.2), h18, ep, ok_bind]
    unfold SInt.cast
    rw [toInt_ofInt_of_fits hb hfit]

theorem ten_pow_fits {cfg : Cfg} {L : Layout} {P : Nat} (hv : Valid cfg L P) :
    Fits L.bits (10 ^ P) := by
  refine ⟨?_, hv.1⟩
  have h0 : (0 : Int) < 10 ^ P := by positivity
  have h := half_pos L
  show -half L ≤ _
  linarith

theorem coef_toInt {cfg : Cfg} {L : Layout} {P : Nat} (hv : Valid cfg L P) :
    (BitVec.ofInt L.bits (10 ^ P)).toInt = 10 ^ P :=
  toInt_ofInt_of_fits (bits_pos L) (ten_pow_fits hv)

theorem negCoef_spec {cfg : Cfg} {L : Layout} {P : Nat} (hv : Valid cfg L P) :
    (negCoef cfg L P : Res ε _) = .ok (BitVec.ofInt L.bits (-10 ^ P)) := by
  unfold negCoef
  rw [coef_spec hv, ok_bind]
  unfold SInt.neg
  rw [coef_toInt hv, SInt.arith_fits]
  have := hv.1
  have h0 : (0 : Int) < 10 ^ P := by positivity
  rw [fits_half]
  rw [rawMax_half] at this
  omega

theorem negCoef_toInt {cfg : Cfg} {L : Layout} {P : Nat} (hv : Valid cfg L P) :
    (BitVec.ofInt L.bits (-10 ^ P)).toInt = -10 ^ P := by
  apply toInt_ofInt_of_fits (bits_pos L)
  have := hv.1
  have h0 : (0 : Int) < 10 ^ P := by positivity
  rw [fits_half]
  rw [rawMax_half] at this
  omega

/-- The only valid type whose coefficient exceeds half the range is the 128-bit one with 38
decimals. -/
theorem two_ten_pow_le {cfg : Cfg} {L : Layout} {P : Nat} (hv : Valid cfg L P)
    (hne : ¬ (L = .i128 ∧ P = 38)) : 2 * (10 : Int) ^ P ≤ rawMax L := by
  have h1 := hv.1
  have key : ∀ N : Nat, rawMax L < 10 ^ (N + 1) → (P = N → 2 * (10 : Int) ^ N ≤ rawMax L) →
      2 * (10 : Int) ^ N ≤ 10 * rawMax L → 2 * (10 : Int) ^ P ≤ rawMax L := by
    intro N hN hE h3
    have hP : P < N + 1 := by
      by_contra hc
      have : (10 : Int) ^ (N + 1) ≤ 10 ^ P := pow_le_pow_right₀ (by norm_num) (by omega)
      omega
    by_cases he : P = N
    · rw [he]; exact hE he
    · obtain ⟨M, rfl⟩ : ∃ M, N = M + 1 := ⟨N - 1, by omega⟩
      have h2 : (10 : Int) ^ (P + 1) ≤ 10 ^ (M + 1) := pow_le_pow_right₀ (by norm_num) (by omega)
      have : (10 : Int) ^ (P + 1) = 10 * 10 ^ P := by ring
      omega
  cases L
  · exact key 4 (by decide) (fun _ => by decide) (by decide)
  · exact key 9 (by decide) (fun _ => by decide) (by decide)
  · exact key 18 (by decide) (fun _ => by decide) (by decide)
  · exact key 38 (by decide) (fun h => absurd ⟨rfl, h⟩ hne) (by decide)

end Fixnum
