import Verif.OpsBasic

/-! # What `rsqrt` computes at the level of raw integers -/

namespace Fixnum

open Res Spec

variable {L : Layout} {P : Nat}

/-- The integer square root of `n` in the given rounding direction. -/
def sqrtRaw (mode : RoundMode) (n : Nat) : Nat :=
  match mode with
  | .floor => Nat.sqrt n
  | .ceil => if Nat.sqrt n * Nat.sqrt n = n then Nat.sqrt n else Nat.sqrt n + 1
  | .nearest => if Nat.sqrt n * Nat.sqrt n + Nat.sqrt n < n then Nat.sqrt n + 1 else Nat.sqrt n

/-- Whether one is added to the integer square root. -/
def sqrtUp (mode : RoundMode) (n : Nat) : Bool :=
  match mode with
  | .floor => false
  | .ceil => !decide (Nat.sqrt n * Nat.sqrt n = n)
  | .nearest => decide (Nat.sqrt n * Nat.sqrt n + Nat.sqrt n < n)

theorem sqrtRaw_eq (mode : RoundMode) (n : Nat) :
    sqrtRaw mode n = if sqrtUp mode n then Nat.sqrt n + 1 else Nat.sqrt n := by
  cases mode
  · unfold sqrtRaw sqrtUp
    dsimp only
    by_cases h : Nat.sqrt n * Nat.sqrt n = n
    · rw [if_pos h, decide_eq_true h]; rfl
    · rw [if_neg h, decide_eq_false h]; rfl
  · unfold sqrtRaw sqrtUp
    dsimp only
    by_cases h : Nat.sqrt n * Nat.sqrt n + Nat.sqrt n < n
    · rw [if_pos h, decide_eq_true h]; rfl
    · rw [if_neg h, decide_eq_false h]; rfl
  · rfl

theorem half_sq (L : Layout) : half L * half L = 2 ^ (2 * L.bits - 2) := by
  unfold half
  rw [← pow_add]
  congr 1
  have := bits_ge L
  omega

theorem two_half_sq (L : Layout) : 2 * (half L * half L) = 2 ^ (2 * L.bits - 1) := by
  have h := bits_ge L
  rw [half_sq, show 2 * L.bits - 1 = (2 * L.bits - 2) + 1 by omega, pow_succ, mul_comm]

theorem rsqrtTest_spec (cfg : Cfg) (mode : RoundMode) (sq lo : (prom L).T) (n : Nat)
    (hsq : (prom L).toInt sq = n) (hlo : (prom L).toInt lo = (Nat.sqrt n : Nat))
    (hn : (Nat.sqrt n : Int) ≤ half L - 1) :
    FP.rsqrtTest cfg (prom L) sq lo mode = .ok (sqrtUp mode n) := by
  have hp := prom_sound L
  have h1 : Nat.sqrt n * Nat.sqrt n ≤ n := Nat.sqrt_le n
  have h2 : n < (Nat.sqrt n + 1) * (Nat.sqrt n + 1) := Nat.lt_succ_sqrt n
  have hB := two_half_sq L
  have hh := half_pos L
  generalize hs : Nat.sqrt n = s at *
  have hs0 : (0 : Int) ≤ s := by positivity
  have hn' : (n : Int) < (s + 1) * (s + 1) := by exact_mod_cast h2
  have hn1 : (s : Int) * s ≤ n := by exact_mod_cast h1
  have hs1 : ((s : Int) + 1) * (s + 1) ≤ half L * half L := by nlinarith
  have hmul : ∀ cfg, ∃ r, (prom L).mul cfg lo lo = .ok r ∧ (prom L).toInt r = (s : Int) * s := by
    intro cfg
    have := hp.mul cfg lo lo
    rw [hlo] at this
    apply this
    · rw [abs_of_nonneg hs0]; nlinarith
    · rw [abs_of_nonneg hs0]; nlinarith
    · rw [abs_of_nonneg (by positivity)]; nlinarith
  unfold FP.rsqrtTest
  cases mode
  · dsimp only
    obtain ⟨r, e1, e2⟩ := hmul cfg
    rw [e1, ok_bind, hp.eq, e2, hsq]
    unfold sqrtUp
    dsimp only
    rw [hs]
    have : ((s : Int) * s = n) ↔ s * s = n := by norm_cast
    rw [decide_eq_decide.2 this]
  · dsimp only
    obtain ⟨l2, e1, v1⟩ := hmul cfg
    obtain ⟨t1, e2, v2⟩ := hp.add cfg l2 lo (by
      rw [v1, hlo, abs_of_nonneg (by positivity)]; nlinarith)
    rw [v1, hlo] at v2
    obtain ⟨t2, e3, v3⟩ := hp.add cfg t1 lo (by
      rw [v2, hlo, abs_of_nonneg (by positivity)]; nlinarith)
    rw [v2, hlo] at v3
    obtain ⟨t3, e4, v4⟩ := hp.add cfg t2 (prom L).one (by
      rw [v3, hp.one, abs_of_nonneg (by positivity)]; nlinarith)
    rw [v3, hp.one] at v4
    obtain ⟨t4, e5, v5⟩ := hp.sub cfg sq l2 (by
      rw [v1, hsq, abs_lt]; constructor <;> nlinarith)
    rw [v1, hsq] at v5
    obtain ⟨t5, e6, v6⟩ := hp.sub cfg t3 sq (by
      rw [v4, hsq, abs_lt]; constructor <;> nlinarith)
    rw [v4, hsq] at v6
    rw [e1, ok_bind, e2, ok_bind, e3, ok_bind, e4, ok_bind, e5, ok_bind, e6, ok_bind, hp.ge, v5, v6]
    unfold sqrtUp
    dsimp only
    rw [hs]
    have : ((s : Int) * s + s + s + 1 - n ≤ n - s * s) ↔ s * s + s < n := by
      zify
      omega
    rw [decide_eq_decide.2 this]
  · rfl

/-- `rsqrt` of a non-negative number, in every build. -/
theorem rsqrt_spec {cfg : Cfg} (hv : Valid cfg L P) (a : FP L P) (ha : 0 ≤ a.inner.toInt)
    (mode : RoundMode) :
    Fits L.bits (sqrtRaw mode (a.inner.toInt * 10 ^ P).toNat : Nat) ∧
    FP.rsqrt cfg a mode =
      .ok ⟨BitVec.ofInt _ (sqrtRaw mode (a.inner.toInt * 10 ^ P).toNat : Nat)⟩ := by
  have hp := prom_sound L
  have hw := bits_pos L
  have hh := half_pos L
  have hB := two_half_sq L
  have hq := half_sq L
  have hten : (0 : Int) < 10 ^ P := by positivity
  have hc := hv.1
  rw [rawMax_half] at hc
  have fa := (fits_half L _).1 (toInt_fits a.inner)
  obtain ⟨n, hn⟩ := Int.eq_ofNat_of_zero_le (show 0 ≤ a.inner.toInt * 10 ^ P by positivity)
  have hnM : (n : Int) ≤ (half L - 1) * (half L - 1) := by rw [← hn]; nlinarith
  have e0 : (a.inner.toInt * 10 ^ P).toNat = n := by rw [hn]; rfl
  rw [e0]
  have h1 : Nat.sqrt n * Nat.sqrt n ≤ n := Nat.sqrt_le n
  have hsM : (Nat.sqrt n : Int) ≤ half L - 1 := by
    by_contra hcon
    have : (Nat.sqrt n : Int) * Nat.sqrt n ≤ n := by exact_mod_cast h1
    nlinarith
  have hup : sqrtUp mode n = true → (Nat.sqrt n : Int) + 1 ≤ half L - 1 := by
    intro hu
    have hlt : Nat.sqrt n * Nat.sqrt n < n := by
      unfold sqrtUp at hu
      cases mode
      · simp only [Bool.not_eq_true', decide_eq_false_iff_not] at hu; omega
      · simp only [decide_eq_true_eq] at hu; omega
      · cases hu
    by_contra hcon
    have h3 : (Nat.sqrt n : Int) * Nat.sqrt n < n := by exact_mod_cast hlt
    nlinarith
  have fits_lo : Fits L.bits (Nat.sqrt n : Nat) := by rw [fits_half]; omega
  have hfit : Fits L.bits (sqrtRaw mode n : Nat) := by
    rw [sqrtRaw_eq, fits_half]
    by_cases hu : sqrtUp mode n = true
    · rw [if_pos hu]; have := hup hu; push_cast; omega
    · rw [if_neg hu]; omega
  refine ⟨hfit, ?_⟩
  obtain ⟨sq, e1, v1⟩ := hp.mul cfg ((prom L).ofL a.inner) ((prom L).ofL (BitVec.ofInt L.bits (10 ^ P)))
    (by rw [hp.ofL, abs_of_nonneg ha]; nlinarith)
    (by rw [hp.ofL, coef_toInt hv, abs_of_pos hten]; nlinarith)
    (by rw [hp.ofL, hp.ofL, coef_toInt hv, hn, abs_of_nonneg (by positivity)]; nlinarith)
  rw [hp.ofL, hp.ofL, coef_toInt hv, hn] at v1
  obtain ⟨lo, e2, v2⟩ := hp.sqrt cfg sq (by rw [v1]; positivity) (by rw [v1, ← hq]; nlinarith)
  rw [v1, Int.toNat_natCast] at v2
  have e3 := rsqrtTest_spec cfg mode sq lo n v1 v2 hsM
  have e4 := hp.tryL_some lo (by rw [v2]; exact fits_lo)
  rw [v2] at e4
  unfold FP.rsqrt
  rw [if_neg (by omega)]
  dsimp only
  rw [coef_spec hv, ok_bind, e1, ok_bind, e2, ok_bind, e3, ok_bind, e4]
  have e5 : (unwrap (ofOption ArithErr.overflow (some (BitVec.ofInt L.bits (Nat.sqrt n : Nat)))) :
      Res ArithErr _) = .ok (BitVec.ofInt L.bits (Nat.sqrt n : Nat)) := rfl
  rw [e5, ok_bind]
  by_cases hu : sqrtUp mode n = true
  · have f1 : Fits L.bits ((BitVec.ofInt L.bits (Nat.sqrt n : Nat)).toInt + (BitVec.ofInt L.bits 1).toInt) := by
      rw [toInt_ofInt_of_fits hw fits_lo, toInt_ofInt_of_fits hw (by rw [fits_half]; omega),
        fits_half]
      have := hup hu
      omega
    rw [if_pos hu]
    unfold SInt.add
    rw [SInt.arith_fits cfg f1, ok_bind, toInt_ofInt_of_fits hw fits_lo,
      toInt_ofInt_of_fits hw (by rw [fits_half]; omega), sqrtRaw_eq, if_pos hu]
    push_cast
    rfl
  · rw [if_neg hu, sqrtRaw_eq, if_neg hu]
    rfl

theorem rsqrt_neg (cfg : Cfg) (a : FP L P) (ha : a.inner.toInt < 0) (mode : RoundMode) :
    FP.rsqrt cfg a mode = .err .domainViolation := by
  unfold FP.rsqrt
  rw [if_pos ha]

end Fixnum
