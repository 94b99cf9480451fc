import Verif.FloatCore
import Mathlib.Algebra.Order.Archimedean.Basic
import Mathlib.Algebra.Order.Floor.Ring

/-! # What the conversion from `f64` computes, exactly -/

namespace Fixnum

open Res Spec F64

variable {L : Layout} {P : Nat} {ε : Type}

theorem round49_mono {v w : ℚ} (h : v ≤ w) : round49 v ≤ round49 w :=
  Int.ceil_le_ceil (by linarith)

theorem round49_int (n : ℤ) : round49 (n : ℚ) = n := by
  unfold round49
  rw [Int.ceil_eq_iff]
  constructor <;> linarith

theorem round49_eq {v : ℚ} {r : Nat} (h1 : v - 4 / 9 ≤ r) (h2 : (r : ℚ) < v + 5 / 9) :
    round49 v = r := by
  unfold round49
  rw [Int.ceil_eq_iff]
  push_cast
  constructor <;> linarith

theorem Spec.DecimalCut.place {y : ℚ} (h : 0 < y) :
    ∃ g : ℤ, g ≤ 0 ∧ (g = 0 ∨ y < 2 ^ 52 * 10 ^ g) ∧ 2 ^ 52 * 10 ^ (g - 1) ≤ y := by
  obtain ⟨n, hn1, hn2⟩ := exists_mem_Ico_zpow (show 0 < y / 2 ^ 52 by positivity)
    (show (1 : ℚ) < 10 by norm_num)
  have hp : (0 : ℚ) < 2 ^ 52 := by positivity
  rw [le_div_iff₀ hp] at hn1
  rw [div_lt_iff₀ hp] at hn2
  rcases le_or_gt (n + 1) 0 with h1 | h1
  · refine ⟨n + 1, h1, .inr (by linarith), ?_⟩
    rw [add_sub_cancel_right]
    linarith
  · refine ⟨0, le_refl _, .inl rfl, ?_⟩
    have : (10 : ℚ) ^ (0 - 1 : ℤ) ≤ 10 ^ n := zpow_le_zpow_right₀ (by norm_num) (by omega)
    have := mul_le_mul_of_nonneg_right this hp.le
    linarith

theorem round49_grid {c : Nat} {e g : ℤ} (h : g ≤ e) :
    (round49 ((c : ℚ) * 10 ^ e / 10 ^ g) : ℚ) * 10 ^ g = c * 10 ^ e := by
  obtain ⟨k, hk⟩ : ∃ k : Nat, e - g = k := ⟨(e - g).toNat, by omega⟩
  have h1 : (c : ℚ) * 10 ^ e / 10 ^ g = ((c * 10 ^ k : ℕ) : ℤ) := by
    rw [mul_div_assoc, ← zpow_sub₀ (by norm_num), hk, zpow_natCast]
    push_cast; rfl
  rw [h1, round49_int, ← h1]
  field_simp

/-- A number with few digits is not changed. -/
theorem Spec.DecimalCut.id {c : Nat} {e : ℤ} (hc : 0 < c) (h : 0 ≤ e ∨ c < 2 ^ 52) :
    DecimalCut (c * 10 ^ e) (c * 10 ^ e) := by
  have hcq : (0 : ℚ) < c := by exact_mod_cast hc
  obtain ⟨g, g1, g2, g3⟩ := Spec.DecimalCut.place (show (0 : ℚ) < c * 10 ^ e by positivity)
  refine ⟨g, g1, g2, g3, (round49_grid ?_).symm⟩
  rcases h with h | h
  · omega
  · have h1 : (c : ℚ) < 2 ^ 52 := by exact_mod_cast h
    have h2 : (2 : ℚ) ^ 52 * 10 ^ (g - 1) < 2 ^ 52 * 10 ^ e :=
      lt_of_le_of_lt g3 (mul_lt_mul_of_pos_right h1 (by positivity))
    have h3 := lt_of_mul_lt_mul_left h2 (by positivity)
    have := (zpow_lt_zpow_iff_right₀ (show (1 : ℚ) < 10 by norm_num)).1 h3
    omega

theorem Spec.DecimalCut.mono {y y' t t' : ℚ} (hy : y ≤ y') (h : DecimalCut y t) (h' : DecimalCut y' t') :
    t ≤ t' := by
  obtain ⟨g, g1, g2, g3, rfl⟩ := h
  obtain ⟨g', g1', g2', g3', rfl⟩ := h'
  have hp : (0 : ℚ) < 10 ^ g := by positivity
  have hp' : (0 : ℚ) < 10 ^ g' := by positivity
  rcases lt_trichotomy g g' with hg | rfl | hg
  · have hlt : y < 2 ^ 52 * 10 ^ g := by
      rcases g2 with h | h
      · omega
      · exact h
    have a1 : round49 (y / 10 ^ g) ≤ 2 ^ 52 := by
      unfold round49
      rw [Int.ceil_le]
      have : y / 10 ^ g < 2 ^ 52 := by rw [div_lt_iff₀ hp]; exact hlt
      push_cast
      linarith
    have a2 : (round49 (y / 10 ^ g) : ℚ) ≤ 2 ^ 52 := by exact_mod_cast a1
    have b0 : (2 : ℚ) ^ 52 / 10 ≤ y' / 10 ^ g' := by
      rw [le_div_iff₀ hp']
      rw [zpow_sub_one₀ (by norm_num)] at g3'
      linarith
    have b1 : round49 (2 ^ 52 / 10) ≤ round49 (y' / 10 ^ g') := round49_mono b0
    have b2 : round49 (2 ^ 52 / 10) = 450359962737050 := by
      unfold round49; rw [Int.ceil_eq_iff]; norm_num
    rw [b2] at b1
    have b3 : (450359962737050 : ℚ) ≤ round49 (y' / 10 ^ g') := by exact_mod_cast b1
    have c1 : (10 : ℚ) ^ g ≤ 10 ^ (g' - 1) := zpow_le_zpow_right₀ (by norm_num) (by omega)
    rw [zpow_sub_one₀ (by norm_num)] at c1
    calc (round49 (y / 10 ^ g) : ℚ) * 10 ^ g ≤ 2 ^ 52 * 10 ^ g :=
          mul_le_mul_of_nonneg_right a2 hp.le
      _ ≤ 2 ^ 52 * (10 ^ g' * 10⁻¹) := mul_le_mul_of_nonneg_left c1 (by positivity)
      _ ≤ 450359962737050 * 10 ^ g' := by
          generalize (10 : ℚ) ^ g' = u at *
          norm_num
          linarith
      _ ≤ _ := mul_le_mul_of_nonneg_right b3 hp'.le
  · have h1 : y / 10 ^ g ≤ y' / 10 ^ g := div_le_div_of_nonneg_right hy hp.le
    have h2 : (round49 (y / 10 ^ g) : ℚ) ≤ round49 (y' / 10 ^ g) := by
      exact_mod_cast round49_mono h1
    exact mul_le_mul_of_nonneg_right h2 hp.le
  · exfalso
    have hlt : y' < 2 ^ 52 * 10 ^ g' := by
      rcases g2' with h | h
      · omega
      · exact h
    have h2 : (2 : ℚ) ^ 52 * 10 ^ (g - 1) < 2 ^ 52 * 10 ^ g' :=
      lt_of_le_of_lt (g3.trans hy) hlt
    have h3 := lt_of_mul_lt_mul_left h2 (by positivity)
    have := (zpow_lt_zpow_iff_right₀ (show (1 : ℚ) < 10 by norm_num)).1 h3
    omega

/-- Stage result, exactly: `c·10^e` is the cut form of the truncated number `y`; without lossy steps
`y` is the number itself. -/
theorem stages_cut (cfg : Cfg) {b : Nat} {x : Int} (hb : 0 < b) (hb' : b < 2 ^ 53)
    (hx : -1100 ≤ x) (hx' : x ≤ 1000) :
    ∃ (c : Nat) (e : Int) (y : ℚ), (∀ P, stages cfg P b x = rescale cfg P c e) ∧ 0 < c ∧
      c < 2 ^ 128 ∧ -1100 ≤ e ∧ e ≤ 1000 ∧ Below 2200 (b * 2 ^ x) y ∧
      DecimalCut y (c * 10 ^ e) ∧
      ((∃ n k : Nat, (b : ℚ) * 2 ^ x = n / 2 ^ k ∧ n * 5 ^ k < 2 ^ 128) → y = b * 2 ^ x) := by
  have hp : (2 : Nat) ^ 53 < 2 ^ 128 := Nat.pow_lt_pow_right (by norm_num) (by norm_num)
  have hbq : (0 : ℚ) < b := by exact_mod_cast hb
  have hq : (0 : ℚ) ≤ b * 2 ^ x := by positivity
  have ham : amount ⟨b, -x, x⟩ = b * 2 ^ x := by
    unfold amount
    dsimp only
    rw [zpow_neg, mul_assoc, ← div_eq_mul_inv, ← div_zpow]
    norm_num
  by_cases h0 : 0 ≤ x
  · obtain ⟨t, t1, t2, t3, t4, t5, t6, t7⟩ := scaleUp_spec (ε := ConvErr) cfg x.toNat ⟨b, -x, x⟩ hb
      (by dsimp only; omega) (by dsimp only; omega) (by dsimp only; omega) (by dsimp only; omega)
      (by dsimp only; omega) (by dsimp only; omega)
    dsimp only at t5 t6 t7
    rw [ham] at t7
    have hat : amount t = t.bits * 10 ^ t.exponent10 := by
      unfold amount; rw [t4, zpow_zero, mul_one]
    refine ⟨t.bits, t.exponent10, amount t, ?_, t2, t3, by omega, by omega,
      t7.mono hq (by omega), ?_, ?_⟩
    · intro P
      unfold stages
      rw [scaleDown_nonpos cfg (by dsimp only; omega), ok_bind]
      dsimp only
      rw [neg_neg, t1, ok_bind, trim_skip cfg (by omega), ok_bind]
    · rw [hat]; exact DecimalCut.id t2 (.inl (by omega))
    · rintro ⟨n, k, h1, h2⟩
      obtain ⟨m, rfl⟩ : ∃ m : Nat, x = m := ⟨x.toNat, by omega⟩
      rw [zpow_natCast] at h1
      have hlt : b * 2 ^ m < 2 ^ 128 := by
        have h3 : ((b * 2 ^ m : Nat) : ℚ) ≤ n := by
          push_cast
          rw [h1]
          exact div_le_self (by positivity) (one_le_pow₀ (by norm_num))
        have h4 : b * 2 ^ m ≤ n := by exact_mod_cast h3
        have h5 : n ≤ n * 5 ^ k := Nat.le_mul_of_pos_right _ (by positivity)
        omega
      have h3 := scaleUp_exact (ε := ConvErr) cfg m m b m hlt hb (le_refl _) (by omega) (by omega)
        (by omega)
      rw [Int.toNat_natCast, h3] at t1
      injection t1 with t1
      rw [hat, ← t1]
      push_cast
      rw [sub_self]
      simp
  · obtain ⟨n, rfl⟩ : ∃ n : Nat, x = -(n : Int) := ⟨(-x).toNat, by omega⟩
    obtain ⟨t, t1, t2, t3, t4, t5, t6, t7⟩ := scaleDown_spec (ε := ConvErr) cfg hb hb'
      (show 0 < n by omega) (by omega)
    rw [neg_neg] at ham
    rw [ham] at t7
    have hs : ∀ P, stages cfg P b (-(n : Int)) =
        trim cfg t.bits t.exponent10 >>= fun p => rescale cfg P p.1 p.2 := by
      intro P
      unfold stages
      rw [neg_neg, t1, ok_bind, t4, neg_zero, Int.toNat_zero]
      unfold scaleUp
      rw [if_neg (by omega), ok_bind]
    have hat : amount t = t.bits * 10 ^ t.exponent10 := by
      unfold amount; rw [t4, zpow_zero, mul_one]
    have hex : (∃ m k : Nat, (b : ℚ) * 2 ^ (-(n : Int)) = m / 2 ^ k ∧ m * 5 ^ k < 2 ^ 128) →
        amount t = b * 2 ^ (-(n : Int)) := by
      rintro ⟨m, k, h1, h2⟩
      obtain ⟨y, hy, hyd, hyn, hyo, -⟩ := scaleDown_shift (ε := ConvErr) cfg hb hb'
        (show 0 < n by omega) (by omega)
      rw [← ham]
      rcases Nat.lt_or_ge y n with hlt | hge
      · have ho := hyo hlt
        obtain ⟨o, ho'⟩ := hyd
        have hbo : b / 2 ^ y = o := by
          rw [ho', Nat.mul_div_cancel_left _ (by positivity)]
        rw [hbo] at ho
        -- the odd part is the numerator in lowest terms
        have e1 : o * 2 ^ k = m * 2 ^ (n - y) := by
          have h3 : (b : ℚ) * 2 ^ k = m * 2 ^ n := by
            rw [zpow_neg, zpow_natCast] at h1
            field_simp at h1
            linarith
          have h4 : b * 2 ^ k = m * 2 ^ n := by exact_mod_cast h3
          have h5 : 2 ^ n = 2 ^ y * 2 ^ (n - y) := by rw [← pow_add]; congr 1; omega
          rw [ho', h5] at h4
          have : 2 ^ y * (o * 2 ^ k) = 2 ^ y * (m * 2 ^ (n - y)) := by
            calc _ = 2 ^ y * o * 2 ^ k := by ring
              _ = _ := h4
              _ = _ := by ring
          exact Nat.eq_of_mul_eq_mul_left (by positivity) this
        have e2 : n - y ≤ k := by
          by_contra hc
          have h6 : 2 ^ (n - y) = 2 ^ k * 2 * 2 ^ (n - y - k - 1) := by
            rw [← pow_succ, ← pow_add]; congr 1; omega
          rw [h6] at e1
          have h7 : 2 ^ k * o = 2 ^ k * (m * 2 * 2 ^ (n - y - k - 1)) := by
            calc 2 ^ k * o = o * 2 ^ k := by ring
              _ = _ := e1
              _ = _ := by ring
          have h8 := Nat.eq_of_mul_eq_mul_left (by positivity) h7
          rw [h8, show m * 2 * 2 ^ (n - y - k - 1) = 2 * (m * 2 ^ (n - y - k - 1)) by ring] at ho
          omega
        have e3 : m = o * 2 ^ (k - (n - y)) := by
          have h6 : 2 ^ k = 2 ^ (k - (n - y)) * 2 ^ (n - y) := by
            rw [← pow_add]; congr 1; omega
          rw [h6, ← mul_assoc] at e1
          exact (Nat.eq_of_mul_eq_mul_right (by positivity) e1).symm
        have e4 : o * 5 ^ (n - y) < 2 ^ 128 := by
          refine lt_of_le_of_lt ?_ h2
          rw [e3]
          refine Nat.mul_le_mul (Nat.le_mul_of_pos_right _ (by positivity)) ?_
          exact Nat.pow_le_pow_right (by norm_num) e2
        have h3 := scaleDown_dyadic (ε := ConvErr) cfg hb hb' (by omega) hlt ⟨o, ho'⟩
          (by rw [hbo]; exact ho) (by rw [hbo]; exact e4)
        rw [h3] at t1
        injection t1 with t1
        rw [← t1, hbo]
        have h5 : (2 : ℚ) ^ n = 2 ^ y * 2 ^ (n - y) := by rw [← pow_add]; congr 1; omega
        rw [ham, ho']
        unfold amount
        dsimp only
        rw [zpow_neg, zpow_neg, zpow_natCast, zpow_natCast, zpow_zero, h5]
        push_cast
        rw [show (10 : ℚ) = 2 * 5 by norm_num, mul_pow]
        field_simp
      · have hyn' : y = n := by omega
        rw [hyn'] at hyd
        have h3 := scaleDown_int (ε := ConvErr) cfg hb hb' (show 0 < n by omega) (by omega) hyd
        rw [h3] at t1
        injection t1 with t1
        rw [← t1]
        obtain ⟨o, ho⟩ := hyd
        rw [ham, ho, Nat.mul_div_cancel_left _ (by positivity)]
        unfold amount
        dsimp only
        rw [zpow_neg, zpow_natCast, zpow_zero, zpow_zero]
        push_cast
        field_simp
    by_cases htr : t.exponent10 < 0 ∧ 2 ^ 52 ≤ t.bits
    · obtain ⟨r, d, r1, r2, r3, r4, r5, r6, r7, r8⟩ := trim_spec (ε := ConvErr) cfg htr.1 (by omega)
        htr.2 t3
      have hpe : (0 : ℚ) < 10 ^ (t.exponent10 + d) := by positivity
      have h10 : (0 : ℚ) < 10 ^ t.exponent10 := by positivity
      have hdiv : (t.bits : ℚ) / 10 ^ d = amount t / 10 ^ (t.exponent10 + d) := by
        rw [hat, zpow_add₀ (by norm_num), zpow_natCast]
        field_simp
      have h9 : (10 : ℚ) ^ d * 2 ^ 52 ≤ 10 * t.bits := by exact_mod_cast r5
      have hr0 : 0 < r := by
        by_contra hc
        have : r = 0 := by omega
        rw [this] at r6
        have hd : (0 : ℚ) < 10 ^ d := by positivity
        have : (t.bits : ℚ) / 10 ^ d ≥ 2 ^ 52 / 10 := by
          rw [ge_iff_le, le_div_iff₀ hd]
          linarith
        norm_num at this r6
        linarith
      refine ⟨r, t.exponent10 + d, amount t, ?_, hr0, by omega, by omega, by omega,
        t7.mono hq (by omega), ⟨t.exponent10 + d, r3, ?_, ?_, ?_⟩, hex⟩
      · intro P; rw [hs, r1, ok_bind]
      · rcases r8 with h | h
        · exact .inl h
        · right
          have : (t.bits : ℚ) < 10 ^ d * 2 ^ 52 := by exact_mod_cast h
          rw [hat, zpow_add₀ (by norm_num), zpow_natCast]
          nlinarith
      · rw [hat, zpow_sub_one₀ (by norm_num), zpow_add₀ (by norm_num), zpow_natCast]
        nlinarith
      · rw [← hdiv, round49_eq r6 r7]
        push_cast; rfl
    · refine ⟨t.bits, t.exponent10, amount t, ?_, t2, t3, by omega, by omega,
        t7.mono hq (by omega), ?_, hex⟩
      · intro P; rw [hs, trim_skip cfg htr, ok_bind]
      · rw [hat]
        refine DecimalCut.id t2 ?_
        by_cases h : 0 ≤ t.exponent10
        · exact .inl h
        · right
          by_contra hc
          exact htr ⟨by omega, by omega⟩

/-- How the raw result `r` (before the range check) comes from the absolute value `q`. -/
def Computes (P : Nat) (q : ℚ) (r : Nat) : Prop :=
  ∃ y t : ℚ, y ≤ q ∧ q * (1 - tiny) ≤ y ∧
    ((∃ n k : Nat, q = n / 2 ^ k ∧ n * 5 ^ k < 2 ^ 128) → y = q) ∧
    DecimalCut y t ∧ (r : ℤ) = round49 (t * 10 ^ P)

theorem stages_exact (cfg : Cfg) {b : Nat} {x : Int} (hb : 0 < b) (hb' : b < 2 ^ 53)
    (hx : -1100 ≤ x) (hx' : x ≤ 1000) (hP : P ≤ 10 ^ 9) :
    ∃ r : Nat, Computes P (b * 2 ^ x) r ∧
      (r < 2 ^ 128 → stages cfg P b x = .ok r) ∧
      (2 ^ 128 ≤ r → stages cfg P b x = .err ⟨"too big number"⟩) := by
  obtain ⟨c, e, y, h1, h2, h3, h4, h5, h6, h7, h8⟩ := stages_cut cfg hb hb' hx hx'
  have hY' : b * 2 ^ x * (1 - tiny) ≤ y := by
    have := h6.2
    unfold tiny
    push_cast at this
    exact this
  have hz : (c : ℚ) * 10 ^ e * 10 ^ P = c * 10 ^ (e + P) := by
    rw [zpow_add₀ (by norm_num), zpow_natCast]; ring
  by_cases hdown : e < -(P : Int)
  · obtain ⟨r, r1, r2, r3, r4⟩ := rescale_down cfg (P := P) hP (by omega) h3 hdown
    refine ⟨r, ⟨y, _, h6.1, hY', h8, h7, ?_⟩, fun _ => by rw [h1, r1], fun h => by omega⟩
    rw [hz, round49_eq r3 r4]
  · obtain ⟨k, hk⟩ : ∃ k : Nat, e + P = k := ⟨(e + P).toNat, by omega⟩
    obtain ⟨r1, r2⟩ := rescale_up cfg (P := P) hP (by omega) h3 (show -(P : Int) ≤ e by omega)
    rw [hk, Int.toNat_natCast] at r1 r2
    have hk39 : c * 10 ^ k < 2 ^ 128 → k < 39 := by
      intro h
      by_contra hn
      have h1 : 10 ^ 39 ≤ 10 ^ k := Nat.pow_le_pow_right (by norm_num) (not_lt.1 hn)
      have h2 : 10 ^ k ≤ c * 10 ^ k := Nat.le_mul_of_pos_left _ h2
      have h3 : (2 : Nat) ^ 128 < 10 ^ 39 := by norm_num
      omega
    refine ⟨c * 10 ^ k, ⟨y, _, h6.1, hY', h8, h7, ?_⟩, fun h => by rw [h1, r1 h (hk39 h)],
      fun h => by rw [h1, r2 (by omega)]⟩
    rw [hz, hk, zpow_natCast, show (c : ℚ) * 10 ^ k = ((c * 10 ^ k : ℕ) : ℤ) by push_cast; rfl,
      round49_int]

theorem tryFromF64_exact (cfg : Cfg) (L : Layout) (f : BitVec 64) (hf : f64Finite f)
    (h0 : f64Bits f ≠ 0) (hP : P ≤ 10 ^ 9) :
    ∃ r : Nat, Computes P (f64Magnitude f) r ∧
      (FP.tryFromF64 cfg f : Res ConvErr (FP L P)) = finish L P (decide (f64Negative f)) r := by
  obtain ⟨h1, h2⟩ := f64Exp2_range f hf
  obtain ⟨r, r1, r2, r3⟩ := stages_exact cfg (P := P) (Nat.pos_of_ne_zero h0) (f64Bits_lt f)
    (show -1100 ≤ f64Exp2 f by omega) (by omega) hP
  refine ⟨r, by rw [f64Magnitude_eq]; exact r1, ?_⟩
  rw [tryFromF64_eq cfg f hf h0]
  by_cases hr : r < 2 ^ 128
  · rw [r2 hr, ok_bind]
  · rw [r3 (not_lt.1 hr), err_bind]
    unfold finish
    rw [if_neg]
    have h4 : rawMax L < 2 ^ 128 := by cases L <;> decide
    have h5 : (2 : Int) ^ 128 ≤ r := by exact_mod_cast not_lt.1 hr
    omega

/-- Different numbers of the format are at least one part in `2^53` apart. -/
theorem f64_gap {f g : BitVec 64} (h : f64Magnitude f < f64Magnitude g) :
    f64Magnitude f ≤ f64Magnitude g * (1 - 1 / 2 ^ 53) := by
  have b1 := f64Bits_lt f
  have b2 := f64Bits_lt g
  rw [f64Magnitude_eq, f64Magnitude_eq] at *
  rcases le_or_gt (f64Exp2 g) (f64Exp2 f) with hx | hx
  · -- both are multiples of the unit of `g`
    obtain ⟨k, hk⟩ : ∃ k : Nat, f64Exp2 f = f64Exp2 g + k := ⟨(f64Exp2 f - f64Exp2 g).toNat, by omega⟩
    rw [hk, zpow_add₀ (by norm_num), zpow_natCast] at h ⊢
    obtain ⟨u, hu⟩ : ∃ u : ℚ, u = 2 ^ f64Exp2 g := ⟨_, rfl⟩
    rw [← hu] at h ⊢
    have hu0 : 0 < u := by rw [hu]; positivity
    have h1 : (((f64Bits f * 2 ^ k : ℕ) : ℚ)) * u < f64Bits g * u := by
      push_cast; linarith
    have h2 := lt_of_mul_lt_mul_right h1 hu0.le
    have h3 : f64Bits f * 2 ^ k < f64Bits g := by exact_mod_cast h2
    have h4 : ((f64Bits f * 2 ^ k : ℕ) : ℚ) + 1 ≤ f64Bits g := by exact_mod_cast h3
    have h5 : (f64Bits g : ℚ) ≤ 2 ^ 53 := by exact_mod_cast b2.le
    have h6 : ((f64Bits f * 2 ^ k : ℕ) : ℚ) ≤ f64Bits g * (1 - 1 / 2 ^ 53) := by linarith
    have h7 := mul_le_mul_of_nonneg_right h6 hu0.le
    push_cast at h7
    linarith
  · -- `g` is normal
    have hn : 2 ^ 52 ≤ f64Bits g := by
      unfold f64Exp2 at hx
      unfold f64Bits
      split at hx <;> split at hx <;> (try split) <;> omega
    obtain ⟨k, hk⟩ : ∃ k : Nat, f64Exp2 g = f64Exp2 f + (k + 1 : Nat) :=
      ⟨(f64Exp2 g - f64Exp2 f - 1).toNat, by omega⟩
    rw [hk, zpow_add₀ (by norm_num), zpow_natCast] at h ⊢
    obtain ⟨u, hu⟩ : ∃ u : ℚ, u = 2 ^ f64Exp2 f := ⟨_, rfl⟩
    rw [← hu] at h ⊢
    have hu0 : 0 < u := by rw [hu]; positivity
    have h1 : 2 ^ 53 ≤ f64Bits g * 2 ^ (k + 1) := by
      calc 2 ^ 53 = 2 ^ 52 * 2 ^ 1 := by norm_num
        _ ≤ f64Bits g * 2 ^ (k + 1) :=
          Nat.mul_le_mul hn (Nat.pow_le_pow_right (by norm_num) (by omega))
    have h2 : ((2 : ℚ)) ^ 53 ≤ f64Bits g * 2 ^ (k + 1) := by exact_mod_cast h1
    have h3 : (f64Bits f : ℚ) + 1 ≤ 2 ^ 53 := by exact_mod_cast b1
    have h6 : (f64Bits f : ℚ) ≤ f64Bits g * 2 ^ (k + 1) * (1 - 1 / 2 ^ 53) := by linarith
    have h7 := mul_le_mul_of_nonneg_right h6 hu0.le
    linarith

/-- A number of the format has one significand and exponent. -/
theorem f64_unique {f g : BitVec 64} (h : f64Magnitude f = f64Magnitude g) :
    f64Bits f = f64Bits g ∧ f64Exp2 f = f64Exp2 g := by
  have key : ∀ f g : BitVec 64, f64Magnitude f = f64Magnitude g → f64Exp2 g ≤ f64Exp2 f := by
    intro f g h
    by_contra hx
    have hx := not_le.1 hx
    have b1 := f64Bits_lt f
    have hn : 2 ^ 52 ≤ f64Bits g := by
      unfold f64Exp2 at hx
      unfold f64Bits
      split at hx <;> split at hx <;> (try split) <;> omega
    rw [f64Magnitude_eq, f64Magnitude_eq] at h
    obtain ⟨k, hk⟩ : ∃ k : Nat, f64Exp2 g = f64Exp2 f + (k + 1 : Nat) :=
      ⟨(f64Exp2 g - f64Exp2 f - 1).toNat, by omega⟩
    rw [hk, zpow_add₀ (by norm_num), zpow_natCast] at h
    have h2 : (f64Bits f : ℚ) = f64Bits g * 2 ^ (k + 1) := by
      have : (2 : ℚ) ^ f64Exp2 f ≠ 0 := by positivity
      apply mul_right_cancel₀ this
      rw [h]; ring
    have h3 : f64Bits f = f64Bits g * 2 ^ (k + 1) := by exact_mod_cast h2
    have h4 : 2 ^ 52 * 2 ^ 1 ≤ f64Bits g * 2 ^ (k + 1) :=
      Nat.mul_le_mul hn (Nat.pow_le_pow_right (by norm_num) (by omega))
    omega
  have hx : f64Exp2 f = f64Exp2 g := le_antisymm (key g f h.symm) (key f g h)
  refine ⟨?_, hx⟩
  rw [f64Magnitude_eq, f64Magnitude_eq, hx] at h
  have h1 := mul_right_cancel₀ (show (2 : ℚ) ^ f64Exp2 g ≠ 0 by positivity) h
  exact_mod_cast h1

theorem f64Bits_zero_iff (f : BitVec 64) : f64Bits f = 0 ↔ f64Magnitude f = 0 := by
  rw [f64Magnitude_eq]
  constructor
  · intro h; rw [h]; simp
  · intro h
    have : (2 : ℚ) ^ f64Exp2 f ≠ 0 := by positivity
    have := (mul_eq_zero.1 h).resolve_right this
    exact_mod_cast this

theorem tryFromF64_zero (cfg : Cfg) (L : Layout) (f : BitVec 64) (hf : f64Finite f)
    (h0 : f64Bits f = 0) :
    (FP.tryFromF64 cfg f : Res ConvErr (FP L P)) = finish L P (decide (f64Negative f)) 0 := by
  have hz : f64Exponent f = 0 ∧ f64Mantissa f = 0 := by
    unfold f64Bits at h0
    split at h0
    · exact ⟨by assumption, h0⟩
    · omega
  unfold FP.tryFromF64 finish
  rw [(isFinite_iff f).2 hf, Bool.not_true, if_neg (by simp)]
  dsimp only
  have hE : (f.toNat >>> 52) &&& 0x7FF = f64Exponent f := by
    unfold f64Exponent
    rw [Nat.shiftRight_eq_div_pow, show (0x7FF : Nat) = 2 ^ 11 - 1 by norm_num,
      Nat.and_two_pow_sub_one_eq_mod]
  have hM : f.toNat &&& 0x000FFFFFFFFFFFFF = f64Mantissa f := by
    unfold f64Mantissa
    rw [show (0x000FFFFFFFFFFFFF : Nat) = 2 ^ 52 - 1 by norm_num,
      Nat.and_two_pow_sub_one_eq_mod]
  have := half_pos L
  rw [hE, hM, hz.1, hz.2, if_pos ⟨rfl, rfl⟩, if_pos (by rw [rawMax_half]; push_cast; omega)]
  simp [FP.zero, FP.fromBits]

/-- The raw results of two finite numbers are ordered like their absolute values. -/
theorem tryFromF64_raw_mono (cfg : Cfg) (L : Layout) {f g : BitVec 64} (hf : f64Finite f)
    (hg : f64Finite g) (hP : P ≤ 10 ^ 9) (h : f64Magnitude f ≤ f64Magnitude g) :
    ∃ r s : Nat, r ≤ s ∧
      (FP.tryFromF64 cfg f : Res ConvErr (FP L P)) = finish L P (decide (f64Negative f)) r ∧
      (FP.tryFromF64 cfg g : Res ConvErr (FP L P)) = finish L P (decide (f64Negative g)) s := by
  by_cases f0 : f64Bits f = 0
  · obtain ⟨s, -, hs⟩ := tryFromF64_spec (P := P) cfg L g hg hP
    exact ⟨0, s, Nat.zero_le _, tryFromF64_zero cfg L f hf f0, hs⟩
  rcases h.lt_or_eq with hlt | heq
  · have g0 : f64Bits g ≠ 0 := by
      intro hc
      rw [f64Bits_zero_iff] at hc
      rw [hc] at hlt
      have : 0 ≤ f64Magnitude f := by rw [f64Magnitude_eq]; positivity
      linarith
    obtain ⟨r, ⟨y, t, a1, a2, -, a3, a4⟩, hr⟩ := tryFromF64_exact (P := P) cfg L f hf f0 hP
    obtain ⟨s, ⟨y', t', b1, b2, -, b3, b4⟩, hs⟩ := tryFromF64_exact (P := P) cfg L g hg g0 hP
    refine ⟨r, s, ?_, hr, hs⟩
    have hgap := f64_gap hlt
    have hyy : y ≤ y' := by
      refine a1.trans (hgap.trans (le_trans ?_ b2))
      have h0 : 0 ≤ f64Magnitude g := by rw [f64Magnitude_eq]; positivity
      refine mul_le_mul_of_nonneg_left ?_ h0
      have := tiny_lt
      have h1 : (1 : ℚ) / 10 ^ 34 < 1 / 2 ^ 53 := by norm_num
      linarith
    have htt := a3.mono hyy b3
    have hp : (0 : ℚ) < 10 ^ P := by positivity
    have := round49_mono (mul_le_mul_of_nonneg_right htt hp.le)
    rw [← a4, ← b4] at this
    exact_mod_cast this
  · obtain ⟨e1, e2⟩ := f64_unique heq
    have g0 : f64Bits g ≠ 0 := by rw [← e1]; exact f0
    obtain ⟨h1, h2⟩ := f64Exp2_range f hf
    obtain ⟨r, -, r2, r3⟩ := stages_exact cfg (P := P) (Nat.pos_of_ne_zero f0) (f64Bits_lt f)
      (show -1100 ≤ f64Exp2 f by omega) (by omega) hP
    have hfin : ∀ neg, stages cfg P (f64Bits f) (f64Exp2 f) >>= finish L P neg =
        finish L P neg r := by
      intro neg
      by_cases hr : r < 2 ^ 128
      · rw [r2 hr, ok_bind]
      · rw [r3 (not_lt.1 hr), err_bind]
        unfold finish
        rw [if_neg]
        have h4 : rawMax L < 2 ^ 128 := by cases L <;> decide
        have h5 : (2 : Int) ^ 128 ≤ r := by exact_mod_cast not_lt.1 hr
        omega
    refine ⟨r, r, le_refl _, ?_, ?_⟩
    · rw [tryFromF64_eq cfg f hf f0, hfin]
    · rw [tryFromF64_eq cfg g hg g0, ← e1, ← e2, hfin]

end Fixnum
