import Verif.FloatRoundTrip

/-!
# Faithful rounding of the conversion to `f64`

With a coefficient up to `2^53` the fraction is rounded once, and the sum once more; the result is
then next to the number.
-/

namespace Fixnum

open Res Spec F64

/-- From one on, `f64` are multiples of `2^-52`. -/
theorem f64_grid {g : BitVec 64} (h : 1 ≤ f64Value g) : ∃ n : Int, f64Value g * 2 ^ 52 = n := by
  have hneg : ¬ f64Negative g := by
    intro hc
    unfold f64Value at h
    rw [if_pos hc] at h
    have := f64Magnitude_nonneg g
    linarith
  unfold f64Value at h ⊢
  rw [if_neg hneg] at h ⊢
  obtain ⟨m, x, hm, -, hx⟩ := f64Magnitude_form g
  rw [hx] at h ⊢
  have hx52 : -52 ≤ x := by
    by_contra hc
    have h1 : (2 : ℚ) ^ x ≤ 2 ^ (-53 : ℤ) := zpow_le_zpow_right₀ (by norm_num) (by omega)
    have hmq : (m : ℚ) < 2 ^ 53 := by exact_mod_cast hm
    have h2 : (m : ℚ) * 2 ^ x < 2 ^ 53 * 2 ^ (-53 : ℤ) :=
      mul_lt_mul'' hmq (lt_of_le_of_ne h1 (by
        intro he
        have h3 : (2 : ℚ) ^ x = 2 ^ (-53 : ℤ) := he
        have : x = -53 := zpow_right_injective₀ (by norm_num) (by norm_num) h3
        subst this
        have h4 : (m : ℚ) * 2 ^ (-53 : ℤ) < 2 ^ 53 * 2 ^ (-53 : ℤ) :=
          mul_lt_mul_of_pos_right hmq (by positivity)
        norm_num at h h4
        linarith)) (by positivity) (by positivity)
    norm_num at h2
    linarith
  obtain ⟨k, hk⟩ : ∃ k : Nat, x + 52 = k := ⟨(x + 52).toNat, by omega⟩
  refine ⟨m * 2 ^ k, ?_⟩
  have : (2 : ℚ) ^ x * 2 ^ 52 = 2 ^ k := by
    rw [← zpow_natCast (2 : ℚ) 52, ← zpow_add₀ (by norm_num), ← zpow_natCast (2 : ℚ) k]
    congr 1
  push_cast
  rw [mul_assoc, this]

/-- Two of them are equal or `2^-52` apart. -/
theorem f64_gap_one {g h : BitVec 64} (hg : 1 ≤ f64Value g) (hh : 1 ≤ f64Value h)
    (hlt : f64Value g < f64Value h) : f64Value g + 1 / 2 ^ 52 ≤ f64Value h := by
  obtain ⟨m, hm⟩ := f64_grid hg
  obtain ⟨n, hn⟩ := f64_grid hh
  have h1 : (m : ℚ) < n := by
    rw [← hm, ← hn]
    exact mul_lt_mul_of_pos_right hlt (by positivity)
  have h2 : m + 1 ≤ n := by exact_mod_cast h1
  have h3 : (m : ℚ) + 1 ≤ n := by exact_mod_cast h2
  rw [← hm, ← hn] at h3
  norm_num at h3 ⊢
  linarith

/-- A finite `f64` of moderate size is not changed by rounding. -/
theorem R_self {g : BitVec 64} (hg : f64Finite g) (h : |f64Value g| ≤ 2 ^ 200) :
    f64Value (ofRat (f64Value g)) = f64Value g :=
  ofRat_exact (lt_of_le_of_lt h big_lt) g hg rfl

/-- Nothing lies between a number and what it is converted to, for non-negative raw values. -/
theorem core_faithful_nonneg {z c : Int} (hc : 0 < c) (hc' : c ≤ 2 ^ 53) (h0 : 0 ≤ z)
    (h1 : z ≤ 2 ^ 127) {g : BitVec 64} (hg : f64Finite g) :
    (f64Value g ≤ (z : ℚ) / c → f64Value g ≤ f64Value (f64Core z c)) ∧
    ((z : ℚ) / c ≤ f64Value g → f64Value (f64Core z c) ≤ f64Value g) := by
  have hc127 : c ≤ 2 ^ 127 := hc'.trans (by norm_num)
  have hi := Int.tdiv_nonneg h0 hc.le
  have hr := Int.tmod_nonneg c h0
  have hr2 := Int.tmod_lt_of_pos z hc
  obtain ⟨f0, -, f1⟩ := frac_core hc hc127 hr le_rfl hr2.le
  have hres := core_nonneg hc hc127 h0 h1
  have hiz := abs_tdiv_le_self z hc
  rw [abs_of_nonneg h0, abs_of_nonneg hi] at hiz
  have hcq : (0 : ℚ) < c := by exact_mod_cast hc
  have hv := tdiv_tmod_q z hc
  -- the fraction
  have hD : f64Value (F64.div (ofInt (z.tmod c)) (ofInt c)) =
      f64Value (ofRat (((z.tmod c : Int) : ℚ) / c)) := by
    unfold F64.div
    rw [toRat_eq, toRat_eq, ofInt_exact (by rw [abs_of_nonneg hr]; omega),
      ofInt_exact (by rw [abs_of_pos hc]; exact hc')]
  have hF0 : (0 : ℚ) ≤ ((z.tmod c : Int) : ℚ) / c := by
    have : (0 : ℚ) ≤ ((z.tmod c : Int) : ℚ) := by exact_mod_cast hr
    positivity
  have hF1 : ((z.tmod c : Int) : ℚ) / c < 1 := by
    rw [div_lt_one hcq]
    exact_mod_cast hr2
  have hDF : |f64Value (F64.div (ofInt (z.tmod c)) (ofInt c)) - ((z.tmod c : Int) : ℚ) / c| ≤
      1 / 2 ^ 54 := by
    rw [hD]
    have := ofRat_half_ulp (v := ((z.tmod c : Int) : ℚ) / c) (k := 0) (by norm_num) (by norm_num)
      (by rw [abs_of_nonneg hF0, zpow_zero]; exact hF1.le)
    refine this.trans ?_
    norm_num
  have hF0' : ((z.tmod c : Int) : ℚ) / c = 0 → z.tmod c = 0 := by
    intro h
    rcases div_eq_zero_iff.1 h with h | h
    · exact_mod_cast h
    · exact absurd h hcq.ne'
  have hrep : ∀ w : ℚ, 0 ≤ w → w ≤ 2 ^ 128 → |w| ≤ 2 ^ 200 := fun w a b => by
    rw [abs_of_nonneg a]
    exact b.trans (pow_le_pow_right₀ (by norm_num) (by norm_num))
  have hcore : f64Value (f64Core z c) = f64Value (ofRat (f64Value (ofInt (z.tdiv c)) +
      f64Value (F64.div (ofInt (z.tmod c)) (ofInt c)))) := by
    unfold f64Core F64.add
    rw [toRat_eq, toRat_eq]
  rw [hcore] at hres ⊢
  generalize hIdef : z.tdiv c = I at *
  generalize hFdef : ((z.tmod c : Int) : ℚ) / c = F at *
  generalize f64Value (F64.div (ofInt (z.tmod c)) (ofInt c)) = D at *
  have hIq0 : (0 : ℚ) ≤ I := by exact_mod_cast hi
  have hIq : (I : ℚ) ≤ 2 ^ 127 := by
    have : I ≤ 2 ^ 127 := by omega
    exact_mod_cast this
  have h128 : (2 : ℚ) ^ 127 + 1 ≤ 2 ^ 128 := by norm_num
  have hRi0 : 0 ≤ f64Value (ofInt I) := R_nonneg (hrep _ hIq0 (by linarith)) hIq0
  have hRi1 : f64Value (ofInt I) ≤ 2 ^ 127 := R_le_pow (by norm_num) (hrep _ hIq0 (by linarith)) hIq
  have hsum : |f64Value (ofInt I) + D| ≤ 2 ^ 200 := hrep _ (by linarith) (by linarith)
  have hnear := (ofRat_nearest (lt_of_le_of_lt hsum big_lt)).2.2.1 g hg
  obtain ⟨d1, d2⟩ := abs_le.1 hDF
  have hup : f64Value (ofRat (f64Value (ofInt I) + D)) ≤ 2 ^ 128 :=
    R_le_pow (by norm_num) hsum (by linarith)
  rw [hv]
  -- monotonicity against `g`
  have mono1 : 0 ≤ f64Value g → f64Value g ≤ f64Value (ofInt I) + D →
      f64Value g ≤ f64Value (ofRat (f64Value (ofInt I) + D)) := by
    intro a b
    have hgb := hrep _ a (by linarith)
    have := R_mono hgb hsum b
    rwa [R_self hg hgb] at this
  have mono2 : 0 ≤ f64Value g → f64Value g ≤ 2 ^ 128 → f64Value (ofInt I) + D ≤ f64Value g →
      f64Value (ofRat (f64Value (ofInt I) + D)) ≤ f64Value g := by
    intro a a' b
    have hgb := hrep _ a a'
    have := R_mono hsum hgb b
    rwa [R_self hg hgb] at this
  have hsmall : I < 2 ^ 52 → f64Value (ofInt I) = I := fun h =>
    ofInt_exact (by rw [abs_of_nonneg hi]; omega)
  have hbig : 2 ^ 52 ≤ I → (I : ℚ) ≤ f64Value g → ∃ n : Int, f64Value g = n := by
    intro h hle
    have h52 : (2 : ℚ) ^ 52 ≤ I := by exact_mod_cast h
    obtain ⟨n, hn⟩ := f64_multiple (g := g) 0 (by simpa using h52.trans hle)
    refine ⟨n, ?_⟩
    rw [hn]
    simp
  have hone : 1 ≤ I → I < 2 ^ 52 → 1 ≤ f64Value (ofRat (f64Value (ofInt I) + D)) := by
    intro h h'
    have hI1 : (1 : ℚ) ≤ I := by exact_mod_cast h
    have h2 := R_mono (v := 1) (w := f64Value (ofInt I) + D) (hrep 1 (by norm_num) (by norm_num)) hsum (by
      rw [hsmall h']; linarith)
    have h3 := ofRat_two_pow (n := 0) (by norm_num)
    rw [pow_zero] at h3
    rwa [h3] at h2
  have e52 : (1 : ℚ) / 2 ^ 52 = 4 * (1 / 2 ^ 54) := by norm_num
  have e54 : (0 : ℚ) < 1 / 2 ^ 54 := by norm_num
  have gap1 : ∀ a : BitVec 64, 1 ≤ f64Value a → 1 ≤ f64Value g → f64Value a < f64Value g →
      f64Value a + 4 * (1 / 2 ^ 54) ≤ f64Value g := fun a h1 h2 h3 => e52 ▸ f64_gap_one h1 h2 h3
  have gap2 : ∀ a : BitVec 64, 1 ≤ f64Value g → 1 ≤ f64Value a → f64Value g < f64Value a →
      f64Value g + 4 * (1 / 2 ^ 54) ≤ f64Value a := fun a h1 h2 h3 => e52 ▸ f64_gap_one h1 h2 h3
  have succ : I < 2 ^ 127 → f64Value (ofRat (f64Value (ofInt I) + 1)) ≤ f64Value (ofInt (I + 1)) :=
    R_succ hi
  have monoI : (I : ℚ) ≤ f64Value g → f64Value g ≤ 2 ^ 128 → f64Value (ofInt I) ≤ f64Value g := by
    intro a b
    have hgb := hrep _ (by linarith) b
    have := R_mono (hrep _ hIq0 (by linarith)) hgb a
    rwa [R_self hg hgb] at this
  have monoI' : 0 ≤ f64Value g → f64Value g ≤ I → f64Value g ≤ f64Value (ofInt I) := by
    intro a b
    have hgb := hrep _ a (by linarith)
    have := R_mono hgb (hrep _ hIq0 (by linarith)) b
    rwa [R_self hg hgb] at this
  generalize (1 : ℚ) / 2 ^ 54 = u at *
  generalize hRi : f64Value (ofInt I) = Ri at *
  generalize hres' : ofRat (Ri + D) = res at *
  constructor
  · intro hgv
    by_cases hneg : f64Value g < 0
    · linarith
    rw [not_lt] at hneg
    by_cases hgI : f64Value g ≤ I
    · exact mono1 hneg (by linarith [monoI' hneg hgI])
    rw [not_le] at hgI
    by_cases hI52 : I < 2 ^ 52
    · have hS := hsmall hI52
      by_cases hI0 : I = 0
      · apply mono1 hneg
        rw [hI0, Int.cast_zero] at hgv hS
        have := R_mono (hrep _ hneg (by linarith)) (hrep F hF0 (by linarith)) (by linarith : f64Value g ≤ F)
        rw [R_self hg (hrep _ hneg (by linarith)), ← hD] at this
        linarith
      · by_cases hle : f64Value g ≤ Ri + D
        · exact mono1 hneg hle
        · rw [not_le] at hle
          by_contra hc
          rw [not_le] at hc
          have hI1 : (1 : ℚ) ≤ I := by
            have : 1 ≤ I := by omega
            exact_mod_cast this
          have gap := gap1 res (hone (by omega) hI52) (by linarith) hc
          rw [abs_of_pos (by linarith : 0 < f64Value g - (Ri + D))] at hnear
          have := (abs_le.1 hnear).1
          linarith
    · exfalso
      obtain ⟨n, hn⟩ := hbig (not_lt.1 hI52) hgI.le
      rw [hn] at hgI hgv
      have a1 : I < n := by exact_mod_cast hgI
      have a2 : (n : ℚ) < I + 1 := by linarith
      have a3 : n < I + 1 := by exact_mod_cast a2
      omega
  · intro hgv
    by_cases hgb : f64Value g ≤ 2 ^ 128
    swap
    · linarith
    have hg0 : 0 ≤ f64Value g := by linarith
    by_cases hI52 : I < 2 ^ 52
    · have hS := hsmall hI52
      by_cases hI0 : I = 0
      · apply mono2 hg0 hgb
        rw [hI0, Int.cast_zero] at hgv hS
        have := R_mono (hrep F hF0 (by linarith)) (hrep _ hg0 hgb) (by linarith : F ≤ f64Value g)
        rw [R_self hg (hrep _ hg0 hgb), ← hD] at this
        linarith
      · by_cases hle : Ri + D ≤ f64Value g
        · exact mono2 hg0 hgb hle
        · rw [not_le] at hle
          by_contra hc
          rw [not_le] at hc
          have hI1 : (1 : ℚ) ≤ I := by
            have : 1 ≤ I := by omega
            exact_mod_cast this
          have gap := gap2 res (by linarith) (hone (by omega) hI52) hc
          rw [abs_of_neg (by linarith : f64Value g - (Ri + D) < 0)] at hnear
          have := (abs_le.1 hnear).2
          linarith
    · obtain ⟨n, hn⟩ := hbig (not_lt.1 hI52) (by linarith)
      by_cases hF : F = 0
      · have hD0 : D = 0 := by
          rw [hD, hF, ofRat_zero, f64Value_zero]
        apply mono2 hg0 hgb
        rw [hD0, add_zero]
        exact monoI (by linarith) hgb
      · have hF' : 0 < F := lt_of_le_of_ne hF0 (Ne.symm hF)
        have a1 : (I : ℚ) < n := by rw [← hn]; linarith
        have a2 : I + 1 ≤ n := by exact_mod_cast a1
        by_cases hI127 : I < 2 ^ 127
        · have s1 := succ hI127
          have hI1 : ((I + 1 : Int) : ℚ) ≤ f64Value g := by rw [hn]; exact_mod_cast a2
          have hI1' : (0 : ℚ) ≤ ((I + 1 : Int) : ℚ) := by push_cast; linarith
          have s2 := R_mono (hrep _ hI1' (by push_cast; linarith)) (hrep _ hg0 hgb) hI1
          rw [R_self hg (hrep _ hg0 hgb)] at s2
          have s3 := R_mono hsum (w := Ri + 1) (hrep _ (by linarith) (by linarith)) (by linarith)
          rw [hres'] at s3
          exact s3.trans (s1.trans s2)
        · exfalso
          have e1 : z = I := by omega
          apply hF
          have e2 : (z : ℚ) / c ≤ z := div_le_self (by exact_mod_cast h0) (by exact_mod_cast hc)
          rw [hv, e1] at e2
          linarith

end Fixnum
