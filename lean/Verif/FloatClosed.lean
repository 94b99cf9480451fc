import Verif.FloatExact
import Verif.FloatHits
import Mathlib.Tactic.NormNum.Prime

/-!
# The truncations of the conversion from `f64` do not show

No `f64` lies so close above a rounding boundary that losing one part in `2^113` could move it to the
other side, as long as the digits concerned are among the first 55 after the point.
-/

namespace Fixnum

open Res Spec F64 Hits

variable {L : Layout} {P : Nat} {ε : Type}

theorem tiny_113 : tiny ≤ 1 / 2 ^ 113 := by unfold tiny stepErr; norm_num

theorem tiny_nonneg : 0 ≤ tiny := by unfold tiny stepErr; norm_num

/-- The multiples of `5^k/2^j` and the threshold 4/9. -/
theorem tie_stable {k j m : Nat} (hT : tieFree k j = true) (hm : m < 2 ^ 53) {v w : ℚ}
    (hv : v = (m : ℚ) * 5 ^ k / 2 ^ j) (hv' : v ≤ 2 ^ 52) (h1 : w ≤ v) (h2 : v * (1 - tiny) ≤ w) :
    round49 w = round49 v := by
  refine le_antisymm (round49_mono h1) ?_
  by_contra hlt
  rw [not_le] at hlt
  have hv0 : 0 ≤ v := by rw [hv]; positivity
  generalize hR : round49 v - 1 = y
  have c1 : w - 4 / 9 ≤ y := by
    have : round49 w ≤ y := by omega
    have := Int.ceil_le.1 this
    exact this
  have c2 : (y : ℚ) < v - 4 / 9 := by
    have : y < round49 v := by omega
    exact Int.lt_ceil.1 this
  have c3 : v - y ≤ 4 / 9 + 1 / 2 ^ 61 := by
    have ht := tiny_113
    have h3 : v * tiny ≤ 2 ^ 52 * (1 / 2 ^ 113) :=
      mul_le_mul hv' ht tiny_nonneg (by positivity)
    have h4 : (2 : ℚ) ^ 52 * (1 / 2 ^ 113) = 1 / 2 ^ 61 := by norm_num
    rw [h4] at h3
    linarith
  -- the same for the integers
  have hM : (0 : ℚ) < 2 ^ j := by positivity
  have e : (v - y) * 2 ^ j = (((m : Int) * 5 ^ k - 2 ^ j * y : Int) : ℚ) := by
    rw [hv]; push_cast; field_simp
  generalize hz : (m : Int) * 5 ^ k - 2 ^ j * y = z at e
  have d1 : 4 * (2 : Int) ^ j < 9 * z := by
    have : (4 : ℚ) * 2 ^ j < 9 * z := by rw [← e]; nlinarith
    exact_mod_cast this
  have d2 : 9 * 2 ^ 61 * z ≤ 4 * 2 ^ j * 2 ^ 61 + 9 * 2 ^ j := by
    have h61 : (4 / 9 + 1 / 2 ^ 61 : ℚ) * (9 * 2 ^ 61) = 4 * 2 ^ 61 + 9 := by norm_num
    have : (9 * 2 ^ 61 * z : ℚ) ≤ 4 * 2 ^ j * 2 ^ 61 + 9 * 2 ^ j := by
      rw [← e]
      have h5 := mul_le_mul_of_nonneg_right (mul_le_mul_of_nonneg_right c3 hM.le)
        (show (0 : ℚ) ≤ 9 * 2 ^ 61 by positivity)
      have h6 : (4 / 9 + 1 / 2 ^ 61 : ℚ) * 2 ^ j * (9 * 2 ^ 61) = (4 * 2 ^ 61 + 9) * 2 ^ j := by
        rw [← h61]; ring
      rw [h6] at h5
      linarith
    exact_mod_cast this
  have hz0 : 0 < z := by
    have : (0 : Int) < 2 ^ j := by positivity
    omega
  obtain ⟨n, rfl⟩ := Int.eq_ofNat_of_zero_le hz0.le
  have d1' : 4 * 2 ^ j / 9 + 1 ≤ n := by
    have : 4 * 2 ^ j < 9 * n := by exact_mod_cast d1
    omega
  have d2' : n ≤ (4 * 2 ^ j * 2 ^ 61 + 9 * 2 ^ j) / (9 * 2 ^ 61) := by
    rw [Nat.le_div_iff_mul_le (by positivity)]
    have : 9 * 2 ^ 61 * n ≤ 4 * 2 ^ j * 2 ^ 61 + 9 * 2 ^ j := by exact_mod_cast d2
    rwa [Nat.mul_comm]
  unfold tieFree at hT
  dsimp only at hT
  rw [Bool.or_eq_true, Bool.and_eq_true, decide_eq_true_eq, decide_eq_true_eq] at hT
  rcases hT with hT | ⟨hT, hH⟩
  · exact absurd (d1'.trans d2') (not_le.2 hT)
  · have := noHit_sound _ _ _ _ _ _ (Nat.succ_pos _) (d1'.trans d2') hT hH m hm
      (y - ((5 ^ k / 2 ^ j : Nat) : Int) * m)
    apply this
    have e5 : (5 : Int) ^ k = 2 ^ j * ((5 ^ k / 2 ^ j : Nat) : Int) + ((5 ^ k % 2 ^ j : Nat) : Int) := by
      have := Nat.div_add_mod (5 ^ k) (2 ^ j)
      exact_mod_cast this.symm
    have e6 : ((5 ^ k % 2 ^ j : Nat) : Int) * m -
        ((2 ^ j : Nat) : Int) * (y - ((5 ^ k / 2 ^ j : Nat) : Int) * m) = n := by
      rw [← hz, e5]
      push_cast
      ring
    rw [e6]
    exact ⟨by exact_mod_cast d1', by exact_mod_cast d2'⟩

/-- The multiples of `5^k/2^j` and `2^52`. -/
theorem edge_stable {k j m : Nat} (hT : edgeFree k j = true) (hk : 0 < k) {v : ℚ}
    (hv : v = (m : ℚ) * 5 ^ k / 2 ^ j) (h : 2 ^ 52 ≤ v) : 2 ^ 52 ≤ v * (1 - tiny) := by
  have hM : (0 : ℚ) < 2 ^ j := by positivity
  have h1 : 2 ^ (52 + j) ≤ m * 5 ^ k := by
    rw [hv, le_div_iff₀ hM, ← pow_add] at h
    exact_mod_cast h
  have hne : m * 5 ^ k ≠ 2 ^ (52 + j) := by
    intro hc
    have h5 : 5 ∣ 2 ^ (52 + j) := by
      rw [← hc]
      exact Dvd.dvd.mul_left (dvd_pow_self 5 (by omega)) m
    have := (show Nat.Prime 5 by norm_num).dvd_of_dvd_pow h5
    omega
  have hp5 : 0 < 5 ^ k := by positivity
  have h2 : 2 ^ (52 + j) / 5 ^ k + 1 ≤ m := by
    rw [Nat.succ_le_iff, Nat.div_lt_iff_lt_mul hp5]
    omega
  unfold edgeFree at hT
  have h3 := of_decide_eq_true hT
  have h4 : 2 ^ (52 + j) * (2 ^ 112 + 1) < m * 5 ^ k * 2 ^ 112 :=
    lt_of_lt_of_le h3 (Nat.mul_le_mul_right _ (Nat.mul_le_mul_right _ h2))
  have h5 : (2 : ℚ) ^ (52 + j) * (2 ^ 112 + 1) < m * 5 ^ k * 2 ^ 112 := by exact_mod_cast h4
  have h6 : (2 : ℚ) ^ 52 * (2 ^ 112 + 1) < v * 2 ^ 112 := by
    rw [hv, div_mul_eq_mul_div, lt_div_iff₀ hM]
    calc (2 : ℚ) ^ 52 * (2 ^ 112 + 1) * 2 ^ j = 2 ^ (52 + j) * (2 ^ 112 + 1) := by
          rw [pow_add]; ring
      _ < _ := h5
  have ht := tiny_113
  have h7 : v * (1 - 1 / 2 ^ 113) ≤ v * (1 - tiny) :=
    mul_le_mul_of_nonneg_left (by linarith) (by linarith [show (0 : ℚ) < 2 ^ 52 by positivity])
  refine le_trans ?_ h7
  clear h7 ht h5 h4 h3 hT h2 h1 hne hv hp5 hM h
  norm_num at h6 ⊢
  linarith

/-- Between a power of ten and the power of two below it. -/
theorem log2_pow_ten (k : Nat) : 2 ^ Nat.log2 (10 ^ k) ≤ 10 ^ k ∧ 10 ^ k < 2 ^ (Nat.log2 (10 ^ k) + 1) ∧
    k ≤ Nat.log2 (10 ^ k) := by
  have hp : 10 ^ k ≠ 0 := by positivity
  refine ⟨(Nat.le_log2 hp).1 le_rfl, (Nat.log2_lt hp).1 (Nat.lt_succ_self _), ?_⟩
  rw [Nat.le_log2 hp]
  exact Nat.pow_le_pow_left (by norm_num) k

/-- The cut of the truncated number is the cut of the number. -/
theorem cut_stable {b : Nat} {x : Int} (hb : 2 ^ 52 ≤ b) (hb' : b < 2 ^ 53) {q y t t' : ℚ}
    (hq : q = b * 2 ^ x) (hlow : 2 ^ 52 / 10 ^ 55 ≤ q) (h1 : y ≤ q) (h2 : q * (1 - tiny) ≤ y)
    (hex : -30 ≤ x → y = q) (hy : DecimalCut y t) (hq' : DecimalCut q t') : t = t' := by
  by_cases hx : -30 ≤ x
  · rw [hex hx] at hy
    exact le_antisymm (hy.mono le_rfl hq') (hq'.mono le_rfl hy)
  have hbq : (2 : ℚ) ^ 52 ≤ b := by exact_mod_cast hb
  have hbq' : (b : ℚ) < 2 ^ 53 := by exact_mod_cast hb'
  have ht := tiny_113
  have ht0 := tiny_nonneg
  have hq0 : 0 < q := lt_of_lt_of_le (by positivity) hlow
  have hhalf : q / 2 ≤ y := by
    have : q * (1 / 2) ≤ q * (1 - tiny) := mul_le_mul_of_nonneg_left (by
      have : (1 : ℚ) / 2 ^ 113 ≤ 1 / 2 := by norm_num
      linarith) hq0.le
    linarith
  obtain ⟨g, g1, g2, g3, rfl⟩ := hy
  obtain ⟨g', g1', g2', g3', rfl⟩ := hq'
  have h2x : (0 : ℚ) < 2 ^ x := by positivity
  -- the number is small
  have hqs : q < 2 ^ 22 := by
    have hx31 : (2 : ℚ) ^ x ≤ 2 ^ (-31 : ℤ) := zpow_le_zpow_right₀ (by norm_num) (by omega)
    calc q = b * 2 ^ x := hq
      _ < 2 ^ 53 * 2 ^ x := mul_lt_mul_of_pos_right hbq' h2x
      _ ≤ 2 ^ 53 * 2 ^ (-31 : ℤ) := mul_le_mul_of_nonneg_left hx31 (by positivity)
      _ = 2 ^ 22 := by norm_num
  have hg0' : g' < 0 := by
    by_contra hc
    have : g' = 0 := by omega
    rw [this] at g3'
    norm_num at g3'
    norm_num at hqs
    linarith
  have hg0 : g < 0 := by
    by_contra hc
    have : g = 0 := by omega
    rw [this] at g3
    norm_num at g3
    norm_num at hqs
    linarith
  have g2 : y < 2 ^ 52 * 10 ^ g := g2.resolve_left (by omega)
  have g2' : q < 2 ^ 52 * 10 ^ g' := g2'.resolve_left (by omega)
  -- the place is among the first 55
  have hg55 : -55 ≤ g := by
    by_contra hc
    have h3 : (10 : ℚ) ^ g ≤ 10 ^ (-56 : ℤ) := zpow_le_zpow_right₀ (by norm_num) (by omega)
    have h4 : (2 : ℚ) ^ 52 * 10 ^ g ≤ 2 ^ 52 * 10 ^ (-56 : ℤ) :=
      mul_le_mul_of_nonneg_left h3 (by positivity)
    have h5 : (2 : ℚ) ^ 52 * 10 ^ (-56 : ℤ) = 2 ^ 52 / 10 ^ 55 / 10 := by norm_num
    have h6 : (0 : ℚ) < 2 ^ 52 / 10 ^ 55 := by positivity
    rw [h5] at h4
    linarith
  obtain ⟨k, hk⟩ : ∃ k : Nat, g = -(k : Int) := ⟨(-g).toNat, by omega⟩
  have hk1 : 0 < k := by omega
  have hk56 : k < 56 := by omega
  obtain ⟨l1, l2, l3⟩ := log2_pow_ten k
  generalize hX : Nat.log2 (10 ^ k) = X at l1 l2 l3
  have l1q : (2 : ℚ) ^ X ≤ 10 ^ k := by exact_mod_cast l1
  have l2q : (10 : ℚ) ^ k < 2 ^ (X + 1) := by exact_mod_cast l2
  have hten : (10 : ℚ) ^ g = (10 ^ k)⁻¹ := by rw [hk, zpow_neg, zpow_natCast]
  have hpk : (0 : ℚ) < 10 ^ k := by positivity
  -- scaled by the place
  have scale : ∀ j : Nat, x = -((j : Int) + k) → q / 10 ^ g = (b : ℚ) * 5 ^ k / 2 ^ j := by
    intro j hj
    rw [hten, div_inv_eq_mul, hq, hj, zpow_neg, zpow_add₀ (by norm_num), zpow_natCast, zpow_natCast,
      show (10 : ℚ) ^ k = 2 ^ k * 5 ^ k by rw [← mul_pow]; norm_num]
    have : (2 : ℚ) ^ k ≠ 0 := by positivity
    have : (2 : ℚ) ^ j ≠ 0 := by positivity
    field_simp
  -- exponents of two
  have expo : ∀ n : Int, (2 : ℚ) ^ x * 2 ^ X < 2 ^ n → x + X < n := by
    intro n h
    rw [← zpow_natCast (2 : ℚ) X, ← zpow_add₀ (by norm_num)] at h
    exact (zpow_lt_zpow_iff_right₀ (by norm_num)).1 h
  have expo' : ∀ n : Int, (2 : ℚ) ^ n < 2 ^ x * 2 ^ (X + 1) → n < x + X + 1 := by
    intro n h
    rw [← zpow_natCast (2 : ℚ) (X + 1), ← zpow_add₀ (by norm_num)] at h
    have := (zpow_lt_zpow_iff_right₀ (show (1 : ℚ) < 2 by norm_num)).1 h
    push_cast at this
    omega
  have hgg : g ≤ g' := by
    by_contra hc
    have h3 : (2 : ℚ) ^ 52 * 10 ^ (g - 1) < 2 ^ 52 * 10 ^ g' := lt_of_le_of_lt (g3.trans h1) g2'
    have h4 := lt_of_mul_lt_mul_left h3 (by positivity)
    have := (zpow_lt_zpow_iff_right₀ (show (1 : ℚ) < 10 by norm_num)).1 h4
    omega
  by_cases hne : g' = g
  · -- same place: the threshold
    subst hne
    have u1 : (2 : ℚ) ^ x * 2 ^ X < 2 ^ (0 : ℤ) := by
      rw [zpow_zero]
      have h3 : (2 : ℚ) ^ x * 10 ^ k < 1 := by
        have h4 : (2 : ℚ) ^ 52 * 2 ^ x < 2 ^ 52 * (10 ^ k)⁻¹ := by
          rw [← hten]
          refine lt_of_le_of_lt ?_ g2'
          rw [hq]
          exact mul_le_mul_of_nonneg_right hbq h2x.le
        have h5 := lt_of_mul_lt_mul_left h4 (by positivity)
        rw [inv_eq_one_div, lt_div_iff₀ hpk] at h5
        exact h5
      exact lt_of_le_of_lt (mul_le_mul_of_nonneg_left l1q h2x.le) h3
    have v1 := expo 0 u1
    have u2 : (2 : ℚ) ^ (-5 : ℤ) < 2 ^ x * 2 ^ (X + 1) := by
      have h3 : (1 : ℚ) / 20 < 2 ^ x * 10 ^ k := by
        have h4 : (2 : ℚ) ^ 52 * 10 ^ (g' - 1) < 2 ^ 53 * 2 ^ x := by
          refine lt_of_le_of_lt g3' ?_
          rw [hq]
          exact mul_lt_mul_of_pos_right hbq' h2x
        rw [zpow_sub₀ (by norm_num), hten, zpow_one] at h4
        have h5 : (2 : ℚ) ^ 52 * ((10 ^ k)⁻¹ / 10) * 10 ^ k < 2 ^ 53 * 2 ^ x * 10 ^ k :=
          mul_lt_mul_of_pos_right h4 hpk
        have h6 : (2 : ℚ) ^ 52 * ((10 ^ k)⁻¹ / 10) * 10 ^ k = 2 ^ 52 / 10 := by
          field_simp
        rw [h6] at h5
        norm_num at h5
        linarith
      have h7 : (2 : ℚ) ^ x * 10 ^ k < 2 ^ x * 2 ^ (X + 1) := mul_lt_mul_of_pos_left l2q h2x
      have h8 : (2 : ℚ) ^ (-5 : ℤ) < 1 / 20 := by norm_num
      exact h8.trans (h3.trans h7)
    have v2 := expo' (-5) u2
    obtain ⟨i, hi, hi7⟩ : ∃ i : Nat, -x = X + i ∧ i < 7 := ⟨(-x - X).toNat, by omega, by omega⟩
    have hj : x = -(((X + i - k : Nat) : Int) + k) := by omega
    have e := scale _ hj
    have hT := (tieFree_table ⟨k, hk56⟩ ⟨i, hi7⟩).resolve_left (by dsimp only; omega)
    dsimp only at hT
    rw [hX] at hT
    have hg10 : (0 : ℚ) < 10 ^ g' := by positivity
    rw [tie_stable hT hb' e (by rw [div_le_iff₀ hg10]; exact g2'.le)
      (div_le_div_of_nonneg_right h1 hg10.le)
      (by rw [div_mul_eq_mul_div]; exact div_le_div_of_nonneg_right h2 hg10.le)]
  · -- another place: there is no number so close to the edge
    exfalso
    have hg10 : (0 : ℚ) < 10 ^ g := by positivity
    have e52 : (2 : ℚ) ^ 52 * 10 ^ g ≤ q := by
      refine le_trans (mul_le_mul_of_nonneg_left ?_ (by positivity)) g3'
      exact zpow_le_zpow_right₀ (by norm_num) (by omega)
    have u1 : (2 : ℚ) ^ x * 2 ^ X < 2 ^ (1 : ℤ) := by
      rw [zpow_one]
      have h3 : (2 : ℚ) ^ x * 10 ^ k < 2 := by
        have h4 : (2 : ℚ) ^ 52 * 2 ^ x < 2 ^ 53 * (10 ^ k)⁻¹ := by
          rw [← hten]
          have h5 : (2 : ℚ) ^ 52 * 2 ^ x ≤ q := by
            rw [hq]; exact mul_le_mul_of_nonneg_right hbq h2x.le
          have h6 : (2 : ℚ) ^ 53 * 10 ^ g = 2 * (2 ^ 52 * 10 ^ g) := by ring
          rw [h6]
          linarith
        have h5 : (2 : ℚ) ^ 52 * (2 ^ x * 10 ^ k) < 2 ^ 53 := by
          have h6 := mul_lt_mul_of_pos_right h4 hpk
          have h7 : (2 : ℚ) ^ 53 * (10 ^ k)⁻¹ * 10 ^ k = 2 ^ 53 := by field_simp
          rw [h7] at h6
          linarith
        norm_num at h5 ⊢
        linarith
      exact lt_of_le_of_lt (mul_le_mul_of_nonneg_left l1q h2x.le) h3
    have v1 := expo 1 u1
    have u2 : (2 : ℚ) ^ (-1 : ℤ) < 2 ^ x * 2 ^ (X + 1) := by
      have h3 : (1 : ℚ) / 2 < 2 ^ x * 10 ^ k := by
        have h4 : (2 : ℚ) ^ 52 * (10 ^ k)⁻¹ < 2 ^ 53 * 2 ^ x := by
          rw [← hten]
          refine lt_of_le_of_lt e52 ?_
          rw [hq]
          exact mul_lt_mul_of_pos_right hbq' h2x
        have h5 := mul_lt_mul_of_pos_right h4 hpk
        have h6 : (2 : ℚ) ^ 52 * (10 ^ k)⁻¹ * 10 ^ k = 2 ^ 52 := by field_simp
        rw [h6] at h5
        norm_num at h5
        linarith
      have h7 : (2 : ℚ) ^ x * 10 ^ k < 2 ^ x * 2 ^ (X + 1) := mul_lt_mul_of_pos_left l2q h2x
      have h8 : (2 : ℚ) ^ (-1 : ℤ) = 1 / 2 := by norm_num
      rw [h8]
      exact h3.trans h7
    have v2 := expo' (-1) u2
    obtain ⟨i, hi, hi9⟩ : ∃ i : Nat, -x = X + i ∧ i < 9 := ⟨(-x - X).toNat, by omega, by omega⟩
    have hj : x = -(((X + (i + 3) - 3 - k : Nat) : Int) + k) := by omega
    have e := scale _ hj
    have hT := (edgeFree_table ⟨k, hk56⟩ ⟨i + 3, by omega⟩).resolve_left (by dsimp only; omega)
    dsimp only at hT
    rw [hX] at hT
    have h9 := edge_stable hT hk1 e (by rw [le_div_iff₀ hg10]; exact e52)
    rw [div_mul_eq_mul_div, le_div_iff₀ hg10] at h9
    linarith

theorem cut_nonneg {y t : ℚ} (h : DecimalCut y t) (hy : 0 < y) : 0 ≤ t := by
  obtain ⟨g, -, -, -, rfl⟩ := h
  have h1 : (0 : ℚ) < 10 ^ g := by positivity
  have h2 : 0 ≤ round49 (y / 10 ^ g) := by
    have h3 : (-1 : ℤ) < round49 (y / 10 ^ g) := by
      unfold round49
      rw [Int.lt_ceil]
      have : 0 < y / 10 ^ g := by positivity
      push_cast
      linarith
    omega
  have : (0 : ℚ) ≤ round49 (y / 10 ^ g) := by exact_mod_cast h2
  positivity

theorem cut_le {y t : ℚ} (h : DecimalCut y t) (hy : 0 < y) : t ≤ 2 * y := by
  obtain ⟨g, -, -, g3, rfl⟩ := h
  have h1 : (0 : ℚ) < 10 ^ g := by positivity
  have h2 : (round49 (y / 10 ^ g) : ℚ) < y / 10 ^ g + 1 := by
    have := Int.ceil_lt_add_one (y / 10 ^ g - 4 / 9)
    unfold round49
    linarith
  have h3 : (round49 (y / 10 ^ g) : ℚ) * 10 ^ g < (y / 10 ^ g + 1) * 10 ^ g :=
    mul_lt_mul_of_pos_right h2 h1
  have h4 : (y / 10 ^ g + 1) * 10 ^ g = y + 10 ^ g := by field_simp
  rw [zpow_sub₀ (by norm_num), zpow_one] at g3
  rw [h4] at h3
  have h5 : (10 : ℚ) ^ g ≤ y := by
    norm_num at g3
    linarith
  linarith

theorem cut_ge {y t : ℚ} (h : DecimalCut y t) : y - 1 ≤ t := by
  obtain ⟨g, g1, -, -, rfl⟩ := h
  have h1 : (0 : ℚ) < 10 ^ g := by positivity
  have h2 : y / 10 ^ g - 4 / 9 ≤ (round49 (y / 10 ^ g) : ℚ) := Int.le_ceil _
  have h3 := mul_le_mul_of_nonneg_right h2 h1.le
  have h4 : (y / 10 ^ g - 4 / 9) * 10 ^ g = y - 4 / 9 * 10 ^ g := by field_simp
  have h5 : (10 : ℚ) ^ g ≤ 10 ^ (0 : ℤ) := zpow_le_zpow_right₀ (by norm_num) g1
  rw [zpow_zero] at h5
  rw [h4] at h3
  linarith

/-- Numbers without digits among the first `P`. -/
theorem cut_tiny (hP : P ≤ 38) {y t : ℚ} (hy0 : 0 < y) (hy : y ≤ 2 ^ 52 / 10 ^ 55)
    (h : DecimalCut y t) : round49 (t * 10 ^ P) = 0 := by
  have h1 := cut_nonneg h hy0
  have h2 := cut_le h hy0
  have hp : (10 : ℚ) ^ P ≤ 10 ^ 38 := pow_le_pow_right₀ (by norm_num) hP
  have hp0 : (0 : ℚ) < 10 ^ P := by positivity
  have h3 : t * 10 ^ P ≤ 2 * (2 ^ 52 / 10 ^ 55) * 10 ^ 38 :=
    mul_le_mul (by linarith) hp hp0.le (by positivity)
  have h4 : 2 * ((2 : ℚ) ^ 52 / 10 ^ 55) * 10 ^ 38 ≤ 4 / 9 := by norm_num
  have h5 : 0 ≤ t * 10 ^ P := by positivity
  unfold round49
  rw [Int.ceil_eq_iff]
  push_cast
  constructor <;> linarith

/-- Numbers above every range. -/
theorem cut_big {y t : ℚ} (hy : 2 ^ 127 + 1 ≤ y) (h : DecimalCut y t) :
    rawMax L < round49 (t * 10 ^ P) := by
  have h1 := cut_ge h
  have hp : (1 : ℚ) ≤ 10 ^ P := one_le_pow₀ (by norm_num)
  have ht : (2 : ℚ) ^ 127 ≤ t := by linarith
  have h2 : (2 : ℚ) ^ 127 ≤ t * 10 ^ P := by
    have : (0 : ℚ) ≤ t := le_trans (by positivity) ht
    nlinarith
  have h3 : (2 : Int) ^ 127 - 1 < round49 (t * 10 ^ P) := by
    unfold round49
    rw [Int.lt_ceil]
    push_cast
    linarith
  have h4 : rawMax L ≤ 2 ^ 127 - 1 := by cases L <;> decide
  omega

end Fixnum
