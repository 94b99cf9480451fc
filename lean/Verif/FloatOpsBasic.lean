import Verif.FloatOps
import Verif.FloatSpec
import Verif.FloatCore
import Verif.IntegralBasic
import Mathlib.Tactic.FieldSimp
import Mathlib.Tactic.Positivity

/-! # Lemmas about the model of binary64 rounding -/

namespace Fixnum

open Res Spec

namespace F64

theorem two_zpow (e : Int) : (2 : ℚ) ^ e = 2 ^ e.toNat / 2 ^ (-e).toNat := by
  rcases le_total 0 e with h | h
  · obtain ⟨n, rfl⟩ := Int.eq_ofNat_of_zero_le h
    rw [show (-(n : Int)).toNat = 0 by omega, Int.toNat_natCast, zpow_natCast]; simp
  · obtain ⟨n, hn⟩ := Int.eq_ofNat_of_zero_le (Int.neg_nonneg.2 h)
    rw [hn, show e.toNat = 0 by omega, Int.toNat_natCast, show e = -(n : Int) by omega, zpow_neg,
      zpow_natCast]
    simp

theorem ilog_spec {n d : Nat} (hn : 0 < n) (hd : 0 < d) :
    (2 : ℚ) ^ ilog n d ≤ n / d ∧ (n : ℚ) / d < 2 ^ (ilog n d + 1) := by
  have hdq : (0 : ℚ) < d := by exact_mod_cast hd
  have a1 : (2 : ℚ) ^ n.log2 ≤ n := by exact_mod_cast Nat.log2_self_le hn.ne'
  have a2 : (n : ℚ) < 2 ^ (n.log2 + 1) := by exact_mod_cast Nat.lt_log2_self
  have b1 : (2 : ℚ) ^ d.log2 ≤ d := by exact_mod_cast Nat.log2_self_le hd.ne'
  have b2 : (d : ℚ) < 2 ^ (d.log2 + 1) := by exact_mod_cast Nat.lt_log2_self
  obtain ⟨k, hk⟩ : ∃ k : Int, k = (n.log2 : Int) - d.log2 := ⟨_, rfl⟩
  have hp : ∀ m : Nat, (0 : ℚ) < 2 ^ m := fun m => by positivity
  have up : (n : ℚ) / d < 2 ^ (k + 1) := by
    rw [div_lt_iff₀ hdq, hk, show (n.log2 : Int) - d.log2 + 1 = ((n.log2 + 1 : Nat) : Int) - d.log2
      by push_cast; ring, zpow_sub₀ (by norm_num), zpow_natCast, zpow_natCast, div_mul_eq_mul_div,
      lt_div_iff₀ (hp _)]
    nlinarith [hp n.log2, hp d.log2, hp (n.log2 + 1)]
  have lo : (2 : ℚ) ^ (k - 1) ≤ n / d := by
    rw [le_div_iff₀ hdq, hk, show (n.log2 : Int) - d.log2 - 1 = n.log2 - ((d.log2 + 1 : Nat) : Int)
      by push_cast; ring, zpow_sub₀ (by norm_num), zpow_natCast, zpow_natCast, div_mul_eq_mul_div,
      div_le_iff₀ (hp _)]
    nlinarith [hp n.log2, hp d.log2, hp (d.log2 + 1)]
  have ht : d * 2 ^ k.toNat ≤ n * 2 ^ (-k).toNat ↔ (2 : ℚ) ^ k ≤ n / d := by
    rw [two_zpow, div_le_div_iff₀ (hp _) hdq, ← Nat.cast_le (α := ℚ)]
    push_cast
    rw [mul_comm (d : ℚ)]
  unfold ilog
  dsimp only
  rw [← hk]
  by_cases h : d * 2 ^ k.toNat ≤ n * 2 ^ (-k).toNat
  · rw [if_pos h]
    exact ⟨ht.1 h, up⟩
  · rw [if_neg h, sub_add_cancel]
    exact ⟨lo, not_le.1 fun hc => h (ht.2 hc)⟩

theorem halfEven_spec {n d : Nat} (hd : 0 < d) :
    |(halfEven n d : ℚ) - n / d| ≤ 1 / 2 ∧
    (|(halfEven n d : ℚ) - n / d| = 1 / 2 → halfEven n d % 2 = 0) := by
  have hdq : (0 : ℚ) < d := by exact_mod_cast hd
  have e : (n : ℚ) / d = (n / d : Nat) + ((n % d : Nat) : ℚ) / d := by
    rw [eq_comm, ← eq_sub_iff_add_eq', div_eq_iff hdq.ne', sub_mul, div_mul_cancel₀ _ hdq.ne']
    have := Nat.div_add_mod n d
    have h : (n : ℚ) = d * (n / d : Nat) + (n % d : Nat) := by exact_mod_cast this.symm
    linear_combination -h
  have hr : n % d < d := Nat.mod_lt _ hd
  have hrq : ((n % d : Nat) : ℚ) < d := by exact_mod_cast hr
  have h0 : (0 : ℚ) ≤ ((n % d : Nat) : ℚ) / d := by positivity
  have h1 : ((n % d : Nat) : ℚ) / d < 1 := (div_lt_one hdq).2 hrq
  rw [e]
  unfold halfEven
  dsimp only
  by_cases c1 : 2 * (n % d) < d
  · rw [if_pos c1]
    have : ((n % d : Nat) : ℚ) / d < 1 / 2 := by
      rw [div_lt_iff₀ hdq]
      have : (2 : ℚ) * (n % d : Nat) < d := by exact_mod_cast c1
      linarith
    rw [show ((n / d : Nat) : ℚ) - ((n / d : Nat) + ((n % d : Nat) : ℚ) / d) =
      -(((n % d : Nat) : ℚ) / d) by ring, abs_neg, abs_of_nonneg h0]
    exact ⟨this.le, fun h => absurd h this.ne⟩
  · rw [if_neg c1]
    by_cases c2 : d < 2 * (n % d)
    · rw [if_pos c2]
      have : 1 / 2 < ((n % d : Nat) : ℚ) / d := by
        rw [lt_div_iff₀ hdq]
        have : (d : ℚ) < 2 * (n % d : Nat) := by exact_mod_cast c2
        linarith
      rw [show ((n / d + 1 : Nat) : ℚ) - ((n / d : Nat) + ((n % d : Nat) : ℚ) / d) =
        1 - (((n % d : Nat) : ℚ) / d) by push_cast; ring, abs_of_pos (by linarith)]
      exact ⟨by linarith, fun h => by exfalso; linarith⟩
    · rw [if_neg c2]
      have hh : ((n % d : Nat) : ℚ) / d = 1 / 2 := by
        rw [div_eq_iff hdq.ne']
        have : 2 * (n % d) = d := by omega
        have : (2 : ℚ) * (n % d : Nat) = d := by exact_mod_cast this
        linarith
      rw [hh]
      refine ⟨?_, fun _ => by omega⟩
      rcases Nat.mod_two_eq_zero_or_one (n / d) with h | h
      · rw [h]; push_cast; rw [abs_le]; constructor <;> linarith
      · rw [h]; push_cast; rw [abs_le]; constructor <;> linarith

/-- What rounding does, as significand and exponent. -/
structure Rounded (v : ℚ) (e : Int) (q : Nat) : Prop where
  exp : -1074 ≤ e
  near : |(q : ℚ) - v / 2 ^ e| ≤ 1 / 2
  even : |(q : ℚ) - v / 2 ^ e| = 1 / 2 → q % 2 = 0
  lt : v / 2 ^ e < 2 ^ 53
  ge : e = -1074 ∨ 2 ^ 52 ≤ v / 2 ^ e

theorem roundMag_spec {n d : Nat} (hn : 0 < n) (hd : 0 < d) :
    ∃ (e : Int) (q : Nat), Rounded ((n : ℚ) / d) e q ∧
      roundMag n d = min (2047 * 2 ^ 52) ((e + 1074).toNat * 2 ^ 52 + q) := by
  obtain ⟨h1, h2⟩ := ilog_spec hn hd
  obtain ⟨e, he⟩ : ∃ e : Int, e = max (-1074) (ilog n d - 52) := ⟨_, rfl⟩
  have hpe : (0 : ℚ) < 2 ^ e := by positivity
  have hw : ((n * 2 ^ (-e).toNat : Nat) : ℚ) / (d * 2 ^ e.toNat : Nat) = (n : ℚ) / d / 2 ^ e := by
    rw [two_zpow]
    push_cast
    field_simp
  obtain ⟨q1, q2⟩ := halfEven_spec (n := n * 2 ^ (-e).toNat) (d := d * 2 ^ e.toNat)
    (Nat.mul_pos hd (by positivity))
  rw [hw] at q1 q2
  refine ⟨e, _, ⟨by omega, q1, q2, ?_, ?_⟩, ?_⟩
  · rw [div_lt_iff₀ hpe, ← zpow_natCast, ← zpow_add₀ (by norm_num)]
    refine lt_of_lt_of_le h2 (zpow_le_zpow_right₀ (by norm_num) ?_)
    push_cast
    omega
  · by_cases hc : e = -1074
    · exact Or.inl hc
    · right
      rw [le_div_iff₀ hpe, ← zpow_natCast, ← zpow_add₀ (by norm_num)]
      refine le_trans (zpow_le_zpow_right₀ (by norm_num) ?_) h1
      push_cast
      omega
  · unfold roundMag
    dsimp only
    rw [if_neg hn.ne', ← he]

namespace Rounded

variable {v : ℚ} {e : Int} {q : Nat}

theorem q_le (h : Rounded v e q) : q ≤ 2 ^ 53 := by
  have h1 := (abs_le.1 h.near).2
  have h2 : (q : ℚ) < (2 ^ 53 + 1 : Nat) := by push_cast; linarith [h.lt]
  have : q < 2 ^ 53 + 1 := by exact_mod_cast h2
  omega

theorem q_ge (h : Rounded v e q) : e = -1074 ∨ 2 ^ 52 ≤ q := by
  rcases h.ge with h2 | h2
  · exact Or.inl h2
  · right
    have h1 := (abs_le.1 h.near).1
    have h3 : ((2 ^ 52 : Nat) : ℚ) < (q + 1 : Nat) := by push_cast; linarith
    have : 2 ^ 52 < q + 1 := by exact_mod_cast h3
    omega

theorem fields (h : Rounded v e q) (f : BitVec 64)
    (hf : f.toNat % 2 ^ 63 = (e + 1074).toNat * 2 ^ 52 + q)
    (hlt : (e + 1074).toNat * 2 ^ 52 + q < 2047 * 2 ^ 52) :
    f64Finite f ∧ f64Magnitude f = q * 2 ^ e ∧ f64Mantissa f % 2 = q % 2 := by
  have h1 := h.q_le
  have h2 := h.q_ge
  have h3 := h.exp
  have hlt' := f.isLt
  obtain ⟨E, hE⟩ : ∃ E : Nat, E = (e + 1074).toNat := ⟨_, rfl⟩
  rw [← hE] at hf hlt
  have heE : e = (E : Int) - 1074 := by omega
  have hm : f64Mantissa f = q % 2 ^ 52 := by
    unfold f64Mantissa
    omega
  have hx : f64Exponent f = E + q / 2 ^ 52 := by
    unfold f64Exponent
    omega
  refine ⟨by unfold f64Finite; omega, ?_, by rw [hm]; omega⟩
  unfold f64Magnitude
  rw [hx, hm]
  by_cases c1 : q < 2 ^ 52
  · have hE0 : E = 0 := by omega
    rw [if_pos (by omega), heE, hE0, Nat.mod_eq_of_lt c1]
    rfl
  · rw [if_neg (by omega)]
    by_cases c2 : q < 2 ^ 53
    · have c3 : q / 2 ^ 52 = 1 := by omega
      have c4 : (2 : ℚ) ^ 52 + (q % 2 ^ 52 : Nat) = q := by
        have : 2 ^ 52 + q % 2 ^ 52 = q := by omega
        exact_mod_cast this
      rw [c3, c4, heE]
      congr 2
      push_cast
      ring
    · have c3 : q = 2 ^ 53 := by omega
      rw [c3, show (2 ^ 53 / 2 ^ 52 : Nat) = 2 by norm_num, show (2 ^ 53 % 2 ^ 52 : Nat) = 0 by
        norm_num, heE, show ((E + 2 : Nat) : Int) - 1075 = ((E : Int) - 1074) + 1 by push_cast; ring,
        zpow_add₀ (by norm_num)]
      push_cast
      ring

theorem not_overflow (h : Rounded v e q) (hv : v < 2 ^ 1023) :
    (e + 1074).toNat * 2 ^ 52 + q < 2047 * 2 ^ 52 := by
  have h1 := h.q_le
  have h3 := h.exp
  rcases h.ge with h2 | h2
  · rw [h2]; norm_num; omega
  · have hpe : (0 : ℚ) < 2 ^ e := by positivity
    rw [le_div_iff₀ hpe, ← zpow_natCast, ← zpow_add₀ (by norm_num)] at h2
    have h4 : (2 : ℚ) ^ (((52 : Nat) : Int) + e) < 2 ^ (1023 : Int) :=
      lt_of_le_of_lt h2 (by rw [show (1023 : Int) = ((1023 : Nat) : Int) from rfl, zpow_natCast]; exact hv)
    rw [zpow_lt_zpow_iff_right₀ (by norm_num)] at h4
    push_cast at h4
    omega

theorem near_int {w : ℚ} {q N : Int} (h : |(q : ℚ) - w| ≤ 1 / 2) :
    |(q : ℚ) - w| ≤ |(N : ℚ) - w| ∧ (N ≠ q → |(q : ℚ) - w| = |(N : ℚ) - w| → |(q : ℚ) - w| = 1 / 2) := by
  by_cases hN : N = q
  · subst hN; exact ⟨le_refl _, fun h => absurd rfl h⟩
  · have h1 : (1 : ℚ) ≤ |(N : ℚ) - q| := by
      have : 1 ≤ |N - q| := Int.one_le_abs (sub_ne_zero.2 hN)
      exact_mod_cast this
    have h2 : |(N : ℚ) - q| ≤ |(N : ℚ) - w| + |(q : ℚ) - w| := by
      have := abs_sub_le (N : ℚ) w q
      rwa [abs_sub_comm w] at this
    exact ⟨by linarith, fun _ h3 => by linarith⟩

/-- No number `m·2^x` of the format is closer. -/
theorem nearest (h : Rounded v e q) {m : Nat} {x : Int} (hm : m < 2 ^ 53) (hx : -1074 ≤ x) :
    |(q : ℚ) * 2 ^ e - v| ≤ |(m : ℚ) * 2 ^ x - v| ∧
    ((m : ℚ) * 2 ^ x ≠ q * 2 ^ e → |(q : ℚ) * 2 ^ e - v| = |(m : ℚ) * 2 ^ x - v| → q % 2 = 0) := by
  have hpe : (0 : ℚ) < 2 ^ e := by positivity
  have scale : ∀ y : ℚ, |y * 2 ^ e - v| = |y - v / 2 ^ e| * 2 ^ e := by
    intro y
    rw [← abs_of_pos hpe, ← abs_mul, abs_of_pos hpe, sub_mul, div_mul_cancel₀ _ hpe.ne']
  have hq := h.near
  rw [← Int.cast_natCast (R := ℚ) q] at hq
  by_cases c : e ≤ x
  · obtain ⟨j, hj⟩ : ∃ j : Nat, x = e + j := ⟨(x - e).toNat, by omega⟩
    have hM : (m : ℚ) * 2 ^ x = ((m * 2 ^ j : Nat) : Int) * 2 ^ e := by
      rw [hj, zpow_add₀ (by norm_num), zpow_natCast]; push_cast; ring
    obtain ⟨n1, n2⟩ := near_int (N := ((m * 2 ^ j : Nat) : Int)) hq
    rw [Int.cast_natCast] at n1 n2
    rw [hM, scale, scale]
    refine ⟨by gcongr, fun a b => h.even ?_⟩
    refine n2 ?_ (mul_right_cancel₀ hpe.ne' b)
    intro hc
    rw [hc, Int.cast_natCast] at a
    exact a rfl
  · have h52 : (2 : ℚ) ^ 52 ≤ v / 2 ^ e := by
      rcases h.ge with h2 | h2
      · omega
      · exact h2
    obtain ⟨n1, -⟩ := near_int (N := ((2 ^ 52 : Nat) : Int)) hq
    rw [Int.cast_natCast, Int.cast_natCast] at n1
    push_cast at n1
    have hM : (m : ℚ) * 2 ^ x = (m * 2 ^ (x - e)) * 2 ^ e := by
      rw [zpow_sub₀ (by norm_num)]; field_simp
    have hs : (m : ℚ) * 2 ^ (x - e) < 2 ^ 52 := by
      have h3 : (2 : ℚ) ^ (x - e) ≤ 2 ^ (-1 : Int) :=
        zpow_le_zpow_right₀ (by norm_num) (by omega)
      have h4 : (2 : ℚ) ^ (-1 : Int) = 1 / 2 := by norm_num
      have h5 : (m : ℚ) < 2 ^ 53 := by exact_mod_cast hm
      have h6 : (0 : ℚ) < 2 ^ (x - e) := by positivity
      rw [h4] at h3
      have h7 : (2 : ℚ) ^ 53 = 2 * 2 ^ 52 := by norm_num
      have h8 : (0 : ℚ) ≤ m := by positivity
      have h9 : (m : ℚ) * 2 ^ (x - e) ≤ m * (1 / 2) := mul_le_mul_of_nonneg_left h3 h8
      linarith
    have hlt : |(q : ℚ) - v / 2 ^ e| < |(m : ℚ) * 2 ^ (x - e) - v / 2 ^ e| := by
      refine lt_of_le_of_lt n1 ?_
      rw [abs_of_nonpos (by linarith), abs_of_nonpos (by linarith)]
      linarith
    rw [hM, scale, scale]
    have := mul_lt_mul_of_pos_right hlt hpe
    exact ⟨this.le, fun _ hc => absurd hc this.ne⟩

/-- The relative error. -/
theorem rel (h : Rounded v e q) (hv : (2 : ℚ) ^ (-1022 : Int) ≤ v) :
    |(q : ℚ) * 2 ^ e - v| ≤ v / 2 ^ 53 := by
  have hpe : (0 : ℚ) < 2 ^ e := by positivity
  have h52 : (2 : ℚ) ^ 52 * 2 ^ e ≤ v := by
    rcases h.ge with h2 | h2
    · rw [h2, ← zpow_natCast, ← zpow_add₀ (by norm_num)]
      exact hv
    · exact (le_div_iff₀ hpe).1 h2
  have scale : |(q : ℚ) * 2 ^ e - v| = |q - v / 2 ^ e| * 2 ^ e := by
    rw [← abs_of_pos hpe, ← abs_mul, abs_of_pos hpe, sub_mul, div_mul_cancel₀ _ hpe.ne']
  rw [scale, le_div_iff₀ (by norm_num)]
  have h3 : (2 : ℚ) ^ 53 = 2 * 2 ^ 52 := by norm_num
  have h4 := mul_le_mul_of_nonneg_right h.near hpe.le
  rw [h3]
  nlinarith

end Rounded

end F64

open F64

/-- Magnitudes of finite numbers: `m·2^x` with `m < 2^53`, `x ≥ -1074`. -/
theorem f64Magnitude_form (g : BitVec 64) : ∃ (m : Nat) (x : Int), m < 2 ^ 53 ∧ -1074 ≤ x ∧
    f64Magnitude g = m * 2 ^ x := by
  have hm : f64Mantissa g < 2 ^ 52 := Nat.mod_lt _ (by norm_num)
  unfold f64Magnitude
  by_cases h : f64Exponent g = 0
  · rw [if_pos h]
    exact ⟨_, _, by omega, le_refl _, rfl⟩
  · rw [if_neg h]
    exact ⟨2 ^ 52 + f64Mantissa g, (f64Exponent g : Int) - 1075, by omega, by omega, by push_cast; rfl⟩

theorem f64Magnitude_nonneg (g : BitVec 64) : 0 ≤ f64Magnitude g := by
  obtain ⟨m, x, -, -, h⟩ := f64Magnitude_form g
  rw [h]; positivity

theorem toRat_eq (f : BitVec 64) : toRat f = f64Value f := by
  have key : ∀ (m : Nat) (x : Int), ((m * 2 ^ x.toNat : Nat) : ℚ) / (2 ^ (-x).toNat : Nat) =
      m * 2 ^ x := by
    intro m x
    rw [two_zpow]; push_cast; rw [mul_div_assoc]
  have hmag : ((((if f64Exponent f = 0 then f64Mantissa f else 2 ^ 52 + f64Mantissa f) *
      2 ^ (if f64Exponent f = 0 then (-1074 : Int) else (f64Exponent f : Int) - 1075).toNat : Nat)
        : ℚ)) /
      (2 ^ (-(if f64Exponent f = 0 then (-1074 : Int) else (f64Exponent f : Int) - 1075)).toNat :
        Nat) = f64Magnitude f := by
    rw [key]
    unfold f64Magnitude
    by_cases h : f64Exponent f = 0
    · simp only [if_pos h]
    · simp only [if_neg h]
      push_cast
      rfl
  unfold toRat
  dsimp only
  rw [Rat.mkRat_eq_div]
  unfold f64Value
  by_cases hn : f64Negative f
  · rw [if_pos (show 2 ^ 63 ≤ f.toNat from hn), if_pos hn, ← hmag, Int.cast_neg, Int.cast_natCast,
      neg_div]
    rfl
  · rw [if_neg (show ¬ 2 ^ 63 ≤ f.toNat from hn), if_neg hn, ← hmag, Int.cast_natCast]
    rfl

/-- `ofRat` of a non-zero number, described. -/
theorem ofRat_form {v : ℚ} (h0 : v ≠ 0) (hv : |v| < 2 ^ 1023) : ∃ (e : Int) (q : Nat),
    Rounded |v| e q ∧ f64Finite (ofRat v) ∧ f64Magnitude (ofRat v) = q * 2 ^ e ∧
    f64Mantissa (ofRat v) % 2 = q % 2 ∧ (f64Negative (ofRat v) ↔ v < 0) := by
  have hn : 0 < v.num.natAbs := Int.natAbs_pos.2 (Rat.num_ne_zero.2 h0)
  obtain ⟨e, q, hr, hm⟩ := roundMag_spec hn v.den_pos
  have hva : ((v.num.natAbs : ℚ)) / v.den = |v| := by
    conv_rhs => rw [← Rat.num_div_den v]
    rw [Nat.cast_natAbs, Int.cast_abs, abs_div, Nat.abs_cast]
  rw [hva] at hr
  have hno := hr.not_overflow hv
  rw [min_eq_right hno.le] at hm
  obtain ⟨p, hp⟩ : ∃ p : Nat, p = (e + 1074).toNat * 2 ^ 52 + q := ⟨_, rfl⟩
  rw [← hp] at hno hm
  have hnat : (ofRat v).toNat = if v.num < 0 then 2 ^ 63 + p else p := by
    unfold ofRat
    dsimp only
    rw [hm, BitVec.toNat_ofNat, Nat.mod_eq_of_lt]
    split <;> omega
  obtain ⟨f1, f2, f3⟩ := hr.fields (ofRat v) (by rw [hnat, ← hp]; split <;> omega)
    (by rw [← hp]; exact hno)
  refine ⟨e, q, hr, f1, f2, f3, ?_⟩
  unfold f64Negative
  rw [hnat, ← Rat.num_neg]
  split <;> omega

theorem f64Value_zero : f64Value 0 = 0 := by
  have h1 : ¬ f64Negative 0 := by decide
  have h2 : f64Exponent 0 = 0 := by decide
  have h3 : f64Mantissa 0 = 0 := by decide
  unfold f64Value f64Magnitude
  rw [if_neg h1, if_pos h2, h3]; simp

/-- The model of rounding is correct. -/
theorem ofRat_nearest {v : ℚ} (hv : |v| < 2 ^ 1023) : f64Nearest (ofRat v) v := by
  by_cases h0 : v = 0
  · subst h0
    have : ofRat 0 = 0 := by rfl
    rw [this]
    refine ⟨by decide, ⟨fun h => absurd h (by decide), fun h => absurd h (lt_irrefl _)⟩, ?_, ?_⟩
    · intro g _
      rw [f64Value_zero, sub_zero, abs_zero]; exact abs_nonneg _
    · intro g _ _ _; decide
  · obtain ⟨e, q, hr, f1, f2, f3, f4⟩ := ofRat_form h0 hv
    have hval : |f64Value (ofRat v) - v| = |(q : ℚ) * 2 ^ e - abs v| := by
      unfold f64Value
      rw [f2]
      by_cases hn : v < 0
      · rw [if_pos (f4.2 hn), abs_of_neg hn, ← abs_neg]; congr 1; ring
      · rw [if_neg (fun h => hn (f4.1 h)), abs_of_nonneg (not_lt.1 hn)]
    have hsame : ∀ g, |f64Magnitude g - abs v| ≤ |f64Value g - v| ∧
        (|f64Magnitude g - abs v| = |f64Value g - v| → f64Magnitude g = f64Magnitude (ofRat v) →
          f64Value g = f64Value (ofRat v)) := by
      intro g
      have h1 := f64Magnitude_nonneg g
      constructor
      · have : f64Magnitude g = |f64Value g| := by
          unfold f64Value
          split
          · rw [abs_neg, abs_of_nonneg h1]
          · rw [abs_of_nonneg h1]
        rw [this]
        exact abs_abs_sub_abs_le _ _
      · intro h2 h3
        unfold f64Value at h2 ⊢
        rw [← h3]
        by_cases hn : v < 0
        · rw [if_pos (f4.2 hn)]
          by_cases hg : f64Negative g
          · rw [if_pos hg]
          · rw [if_neg hg] at h2 ⊢
            rw [abs_of_neg hn, sub_neg_eq_add, abs_of_pos (show 0 < f64Magnitude g - v by linarith)]
              at h2
            rcases abs_cases (f64Magnitude g + v) with ⟨h, _⟩ | ⟨h, _⟩ <;> linarith
        · have hp : 0 < v := lt_of_le_of_ne (not_lt.1 hn) (Ne.symm h0)
          rw [if_neg (fun h => hn (f4.1 h))]
          by_cases hg : f64Negative g
          · rw [if_pos hg] at h2 ⊢
            rw [abs_of_pos hp, abs_of_neg (show -f64Magnitude g - v < 0 by linarith)] at h2
            rcases abs_cases (f64Magnitude g - v) with ⟨h, _⟩ | ⟨h, _⟩ <;> linarith
          · rw [if_neg hg]
    refine ⟨f1, f4, ?_, ?_⟩
    · intro g _
      obtain ⟨m, x, m1, m2, m3⟩ := f64Magnitude_form g
      have := (hr.nearest m1 m2).1
      rw [← m3] at this
      rw [hval]
      exact le_trans this (hsame g).1
    · intro g _ hne heq
      obtain ⟨m, x, m1, m2, m3⟩ := f64Magnitude_form g
      obtain ⟨n1, n2⟩ := hr.nearest m1 m2
      rw [← m3] at n1 n2
      rw [hval] at heq
      have he2 : |(q : ℚ) * 2 ^ e - abs v| = |f64Magnitude g - abs v| :=
        le_antisymm n1 (by rw [heq]; exact (hsame g).1)
      rw [f3]
      refine n2 (fun hc => hne ?_) he2
      exact (hsame g).2 (by rw [← he2, heq]) (by rw [hc, f2])

/-- Numbers of the format are not changed. -/
theorem ofRat_exact {v : ℚ} (hv : |v| < 2 ^ 1023) (g : BitVec 64) (hg : f64Finite g)
    (h : f64Value g = v) : f64Value (ofRat v) = v := by
  have := (ofRat_nearest hv).2.2.1 g hg
  rw [h, sub_self, abs_zero] at this
  exact sub_eq_zero.1 (abs_nonpos_iff.1 this)

/-- The relative error of rounding. -/
theorem ofRat_rel {v : ℚ} (hv : |v| < 2 ^ 1023) (hv' : v = 0 ∨ (2 : ℚ) ^ (-1022 : Int) ≤ |v|) :
    |f64Value (ofRat v) - v| ≤ |v| / 2 ^ 53 := by
  by_cases h0 : v = 0
  · subst h0
    have := (ofRat_nearest (v := 0) (by simp)).2.2.1 0 (by decide)
    rw [f64Value_zero, sub_self, abs_zero] at this
    simpa using this
  · obtain ⟨e, q, hr, f1, f2, f3, f4⟩ := ofRat_form h0 hv
    have hval : |f64Value (ofRat v) - v| = |(q : ℚ) * 2 ^ e - abs v| := by
      unfold f64Value
      rw [f2]
      by_cases hn : v < 0
      · rw [if_pos (f4.2 hn), abs_of_neg hn, ← abs_neg]; congr 1; ring
      · rw [if_neg (fun h => hn (f4.1 h)), abs_of_nonneg (not_lt.1 hn)]
    rw [hval]
    exact hr.rel (hv'.resolve_left h0)

end Fixnum

namespace Fixnum

open Res Spec F64

variable {L : Layout} {P : Nat} {ε : Type}

theorem ofRat_zero : ofRat 0 = 0 := by rfl

/-- A number with a 53-bit significand is not changed. -/
theorem ofRat_repr {v : ℚ} (hv : |v| < 2 ^ 1023) {m : Nat} {x : Int} (hm : m < 2 ^ 53)
    (hx : -1074 ≤ x) (h : |v| = m * 2 ^ x) : f64Value (ofRat v) = v := by
  by_cases h0 : v = 0
  · subst h0; rw [ofRat_zero, f64Value_zero]
  · obtain ⟨e, q, hr, f1, f2, f3, f4⟩ := ofRat_form h0 hv
    have h1 := (hr.nearest hm hx).1
    rw [← h, sub_self, abs_zero] at h1
    have h2 := sub_eq_zero.1 (abs_nonpos_iff.1 h1)
    unfold f64Value
    rw [f2, h2]
    by_cases hn : v < 0
    · rw [if_pos (f4.2 hn), abs_of_neg hn, neg_neg]
    · rw [if_neg (fun h => hn (f4.1 h)), abs_of_nonneg (not_lt.1 hn)]

theorem ofInt_exact {z : Int} (h : |z| ≤ 2 ^ 53) : f64Value (ofInt z) = z := by
  have hv : |((z : Int) : ℚ)| < 2 ^ 1023 := by
    have : (|z| : ℚ) ≤ 2 ^ 53 := by exact_mod_cast h
    exact lt_of_le_of_lt this (pow_lt_pow_right₀ (by norm_num) (by norm_num))
  have ha : |((z : Int) : ℚ)| = (z.natAbs : ℚ) := by rw [Nat.cast_natAbs, Int.cast_abs]
  unfold ofInt
  by_cases hz : z.natAbs < 2 ^ 53
  · exact ofRat_repr hv (m := z.natAbs) (x := 0) hz (by norm_num) (by rw [ha]; simp)
  · have hz2 := abs_le.1 h
    have hz' : z.natAbs = 2 ^ 53 := by omega
    refine ofRat_repr hv (m := 2 ^ 52) (x := 1) (by norm_num) (by norm_num) ?_
    rw [ha, hz']; push_cast; norm_num

theorem ofInt_ten_pow {n : Nat} (h : n ≤ 22) : f64Value (ofInt (10 ^ n)) = 10 ^ n := by
  have : (((10 ^ n : Int)) : ℚ) = 10 ^ n := by push_cast; rfl
  unfold ofInt
  rw [this]
  refine ofRat_repr ?_ (m := 5 ^ n) (x := n) ?_ (by omega) ?_
  · rw [abs_of_pos (by positivity)]
    calc (10 : ℚ) ^ n ≤ 10 ^ 22 := pow_le_pow_right₀ (by norm_num) h
      _ < 2 ^ 100 := by norm_num
      _ < 2 ^ 1023 := pow_lt_pow_right₀ (by norm_num) (by norm_num)
  · calc 5 ^ n ≤ 5 ^ 22 := Nat.pow_le_pow_right (by norm_num) h
      _ < 2 ^ 53 := by norm_num
  · rw [abs_of_pos (by positivity), zpow_natCast]
    push_cast
    rw [← mul_pow]; norm_num

/-- The unit roundoff. -/
def unitErr : ℚ := 1 / 2 ^ 53

/-- Computation of `From<FixedPoint> for f64` on a raw value `z` with coefficient `c`,
`/repo/src/lib.rs:714-721`. -/
def f64Core (z c : Int) : BitVec 64 :=
  F64.add (ofInt (z.tdiv c)) (F64.div (ofInt (z.tmod c)) (ofInt c))

theorem toF64_eq {cfg : Cfg} (hv : Valid cfg L P) (a : FP L P) :
    (FP.toF64 cfg a : Res ε _) = .ok (f64Core a.inner.toInt (10 ^ P)) := by
  have hc := coef_toInt hv
  have hw := bits_pos L
  have hh := half_pos L
  have hpos : (1 : Int) ≤ 10 ^ P := one_le_pow₀ (by norm_num)
  have hne : (10 : Int) ^ P ≠ 0 := by omega
  have fa := toInt_fits a.inner
  have h1 : |a.inner.toInt.tdiv (10 ^ P)| ≤ |a.inner.toInt| := by
    have h := abs_tdiv_mul_le a.inner.toInt (10 ^ P)
    rw [abs_mul, abs_of_pos (show (0 : Int) < 10 ^ P by omega)] at h
    exact le_trans (le_mul_of_one_le_right (abs_nonneg _) hpos) h
  have hs : 0 ≤ a.inner.toInt → 0 ≤ a.inner.toInt.tdiv (10 ^ P) := fun h =>
    Int.tdiv_nonneg h (by omega)
  have f1 : Fits L.bits (a.inner.toInt.tdiv (10 ^ P)) := by
    rw [fits_half] at *
    rcases le_or_gt 0 a.inner.toInt with h | h
    · have := hs h
      rw [abs_of_nonneg this, abs_of_nonneg h] at h1
      omega
    · rw [abs_of_neg h, abs_le] at h1
      by_cases hz : a.inner.toInt.tdiv (10 ^ P) ≤ 0
      · omega
      · exfalso
        have h3 := Int.tdiv_nonneg (show 0 ≤ -a.inner.toInt by omega) (show (0:Int) ≤ 10 ^ P by omega)
        rw [Int.neg_tdiv] at h3
        omega
  have f2 : Fits L.bits (a.inner.toInt.tmod (10 ^ P)) := by
    have h2 : |a.inner.toInt.tmod (10 ^ P)| < 10 ^ P := by
      rcases le_or_gt 0 a.inner.toInt with h | h
      · rw [abs_of_nonneg (Int.tmod_nonneg _ h)]
        exact Int.tmod_lt_of_pos _ (by omega)
      · rw [← abs_neg, ← Int.neg_tmod, abs_of_nonneg (Int.tmod_nonneg _ (by omega))]
        exact Int.tmod_lt_of_pos _ (by omega)
    have h3 := hv.1
    rw [rawMax_half] at h3
    rw [abs_lt] at h2
    rw [fits_half]
    omega
  unfold FP.toF64
  rw [coef_spec hv, ok_bind]
  dsimp only
  unfold SInt.div SInt.rem
  rw [hc, if_neg hne, if_pos f1, ok_bind, if_neg hne, if_pos f1, ok_bind,
    toInt_ofInt_of_fits hw f1, toInt_ofInt_of_fits hw f2]
  rfl

/-- `|R(v) - v| ≤ u |v|`, for the sizes that occur. -/
theorem ofRat_err {v : ℚ} (h : |v| ≤ 2 ^ 200) (h' : v = 0 ∨ 1 / 2 ^ 200 ≤ |v|) :
    |f64Value (ofRat v) - v| ≤ unitErr * |v| := by
  have := ofRat_rel (v := v) (lt_of_le_of_lt h (pow_lt_pow_right₀ (by norm_num) (by norm_num))) (by
    rcases h' with h' | h'
    · exact Or.inl h'
    · right
      refine le_trans ?_ h'
      rw [one_div, ← zpow_natCast, ← zpow_neg]
      exact zpow_le_zpow_right₀ (by norm_num) (by norm_num))
  unfold unitErr
  calc _ ≤ _ := this
    _ = _ := by ring

theorem ofInt_err {z : Int} (h : |z| ≤ 2 ^ 127) : |f64Value (ofInt z) - z| ≤ unitErr * |(z : ℚ)| := by
  refine ofRat_err ?_ ?_
  · have : (|z| : ℚ) ≤ 2 ^ 127 := by exact_mod_cast h
    exact le_trans this (pow_le_pow_right₀ (by norm_num) (by norm_num))
  · by_cases hz : z = 0
    · left; rw [hz]; simp
    · right
      have h1 : (1 : ℚ) ≤ |(z : ℚ)| := by exact_mod_cast Int.one_le_abs hz
      refine le_trans ?_ h1
      rw [div_le_one (by positivity)]
      exact one_le_pow₀ (by norm_num)

theorem unitErr_pos : 0 < unitErr := by unfold unitErr; norm_num
theorem unitErr_lt : unitErr < 1 / 10 ^ 15 := by unfold unitErr; norm_num

/-- The fractional part as computed. -/
theorem frac_err {r c : Int} (hc : 0 < c) (hc' : c ≤ 2 ^ 127) (hr : |r| ≤ 2 ^ 127) {β γ : ℚ}
    (hβ0 : 0 ≤ β) (hγ0 : 0 ≤ γ) (hβ : β ≤ unitErr) (hγ : γ ≤ unitErr)
    (hB : |f64Value (ofInt r) - r| ≤ β * |(r : ℚ)|)
    (hC : |f64Value (ofInt c) - c| ≤ γ * |(c : ℚ)|) :
    f64Finite (F64.div (ofInt r) (ofInt c)) ∧
    |f64Value (F64.div (ofInt r) (ofInt c)) - r / c| ≤
      (β + γ + unitErr + 8 * unitErr ^ 2) * |(r : ℚ) / c| := by
  have hu0 := unitErr_pos
  have hu1 := unitErr_lt
  unfold F64.div
  rw [toRat_eq, toRat_eq]
  generalize f64Value (ofInt r) = B at *
  generalize f64Value (ofInt c) = C at *
  generalize hu : unitErr = u at *
  have hcq : (1 : ℚ) ≤ c := by exact_mod_cast hc
  have hcq' : (c : ℚ) ≤ 2 ^ 127 := by exact_mod_cast hc'
  have hrq : |(r : ℚ)| ≤ 2 ^ 127 := by exact_mod_cast hr
  rw [abs_of_pos (show (0 : ℚ) < c by linarith)] at hC
  have hC' := abs_le.1 hC
  have hγc : γ * c ≤ u * c := by gcongr
  have hCl : (c : ℚ) * (1 - u) ≤ C := by nlinarith
  have hC2 : (c : ℚ) / 2 ≤ C := by nlinarith
  have hCpos : 0 < C := by linarith
  have hCu : C ≤ 2 * c := by nlinarith
  have hR0 := abs_nonneg (r : ℚ)
  have hBl : |(r : ℚ)| / 2 ≤ |B| := by
    have h1 : |(r : ℚ)| ≤ |B| + |B - r| := by
      have := abs_sub_abs_le_abs_sub (r : ℚ) B
      rw [abs_sub_comm] at this
      linarith
    nlinarith
  have hBu : |B| ≤ 2 * |(r : ℚ)| := by
    have h1 : |B| ≤ |(r : ℚ)| + |B - r| := by
      have := abs_sub_abs_le_abs_sub B (r : ℚ)
      linarith
    nlinarith
  -- the exact quotient of the rounded numbers
  have hf0 : 0 ≤ |(r : ℚ) / c| := abs_nonneg _
  have hfe : |(r : ℚ) / c| = |(r : ℚ)| / c := by
    rw [abs_div, abs_of_pos (show (0 : ℚ) < c by linarith)]
  have hq : |B / C - r / c| ≤ (β + γ) * (1 + 2 * u) * |(r : ℚ) / c| := by
    have e : B / C - r / c = ((B - r) * c + r * (c - C)) / (C * c) := by
      field_simp; ring
    rw [e, abs_div, abs_of_pos (show 0 < C * c by positivity), div_le_iff₀ (by positivity), hfe]
    have h1 : |(B - r) * c + r * (c - C)| ≤ β * |(r : ℚ)| * c + |(r : ℚ)| * (γ * c) := by
      refine le_trans (abs_add_le _ _) ?_
      rw [abs_mul, abs_mul, abs_of_pos (show (0 : ℚ) < c by linarith), abs_sub_comm (c : ℚ) C]
      gcongr
    refine le_trans h1 ?_
    have h2 : (β + γ) * (1 + 2 * u) * (|(r : ℚ)| / c) * (C * c) =
        (β + γ) * |(r : ℚ)| * ((1 + 2 * u) * C) := by field_simp
    rw [h2]
    have h3 : (c : ℚ) ≤ (1 + 2 * u) * C := by
      have h4 : (c : ℚ) ≤ (1 + 2 * u) * (c * (1 - u)) := by nlinarith [mul_pos hu0 (show (0 : ℚ) < c by linarith)]
      refine le_trans h4 ?_
      gcongr
    have h5 : 0 ≤ (β + γ) * |(r : ℚ)| := by positivity
    nlinarith
  have hq2 : |B / C - r / c| ≤ (β + γ + 4 * u ^ 2) * |(r : ℚ) / c| := by
    refine le_trans hq ?_
    gcongr
    nlinarith
  have hBC : |B / C| ≤ (1 + 3 * u) * |(r : ℚ) / c| := by
    have h1 : |B / C| ≤ |(r : ℚ) / c| + |B / C - r / c| := by
      have := abs_sub_abs_le_abs_sub (B / C) ((r : ℚ) / c)
      linarith
    have : (β + γ + 4 * u ^ 2) * |(r : ℚ) / c| ≤ 3 * u * |(r : ℚ) / c| := by
      gcongr; nlinarith
    linarith
  have hBCa : |B / C| = |B| / C := by rw [abs_div, abs_of_pos hCpos]
  have hsz : |B / C| ≤ 2 ^ 200 := by
    rw [hBCa, div_le_iff₀ hCpos]
    have h1 : |B| ≤ 2 ^ 128 := by
      refine le_trans hBu ?_
      have : (2 : ℚ) ^ 128 = 2 * 2 ^ 127 := by norm_num
      rw [this]; linarith
    have h2 : (1 : ℚ) / 2 ≤ C := by linarith
    have h3 : (2 : ℚ) ^ 128 ≤ 2 ^ 200 * (1 / 2) := by norm_num
    refine le_trans h1 (le_trans h3 ?_)
    gcongr
  refine ⟨(ofRat_nearest (lt_of_le_of_lt hsz (pow_lt_pow_right₀ (by norm_num) (by norm_num)))).1, ?_⟩
  have hround : |f64Value (ofRat (B / C)) - B / C| ≤ unitErr * |B / C| := by
    refine ofRat_err hsz ?_
    · by_cases hr0 : r = 0
      · left
        have : |B| = 0 := by
          refine le_antisymm ?_ (abs_nonneg _)
          rw [hr0] at hBu; simpa using hBu
        rw [abs_eq_zero.1 this, zero_div]
      · right
        have h1 : (1 : ℚ) ≤ |(r : ℚ)| := by exact_mod_cast Int.one_le_abs hr0
        rw [hBCa, le_div_iff₀ hCpos]
        have h2 : C ≤ 2 ^ 128 := by
          refine le_trans hCu ?_
          have : (2 : ℚ) ^ 128 = 2 * 2 ^ 127 := by norm_num
          rw [this]; linarith
        have h3 : (1 : ℚ) / 2 ^ 200 * 2 ^ 128 ≤ 1 / 2 := by norm_num
        have h4 : (1 : ℚ) / 2 ^ 200 * C ≤ 1 / 2 ^ 200 * 2 ^ 128 := by gcongr
        linarith
  rw [hu] at hround
  have h1 := abs_sub_le (f64Value (ofRat (B / C))) (B / C) ((r : ℚ) / c)
  have h2 : u * |B / C| ≤ u * ((1 + 3 * u) * |(r : ℚ) / c|) := by gcongr
  have h3 : u * ((1 + 3 * u) * |(r : ℚ) / c|) + (β + γ + 4 * u ^ 2) * |(r : ℚ) / c| ≤
      (β + γ + u + 8 * u ^ 2) * |(r : ℚ) / c| := by nlinarith [sq_nonneg u]
  linarith

theorem tdiv_tmod_q (z : Int) {c : Int} (hc : 0 < c) :
    (z : ℚ) / c = (z.tdiv c : ℚ) + (z.tmod c : ℚ) / c := by
  have hcq : (0 : ℚ) < c := by exact_mod_cast hc
  have h : (z : ℚ) = c * (z.tdiv c : ℚ) + (z.tmod c : ℚ) := by
    exact_mod_cast (Int.mul_tdiv_add_tmod z c).symm
  rw [div_eq_iff hcq.ne', add_mul, div_mul_cancel₀ _ hcq.ne']
  linarith

theorem abs_tmod_lt (z : Int) {c : Int} (hc : 0 < c) : |z.tmod c| < c := by
  rcases le_or_gt 0 z with h | h
  · rw [abs_of_nonneg (Int.tmod_nonneg _ h)]
    exact Int.tmod_lt_of_pos _ (by omega)
  · rw [← abs_neg, ← Int.neg_tmod, abs_of_nonneg (Int.tmod_nonneg _ (by omega))]
    exact Int.tmod_lt_of_pos _ (by omega)

/-- Integral and fractional part have the same sign. -/
theorem abs_tdiv_tmod (z : Int) {c : Int} (hc : 0 < c) :
    |(z : ℚ) / c| = |(z.tdiv c : ℚ)| + |(z.tmod c : ℚ) / c| := by
  have hcq : (0 : ℚ) < c := by exact_mod_cast hc
  rw [tdiv_tmod_q z hc]
  rcases le_or_gt 0 z with h | h
  · have h1 : (0 : ℚ) ≤ z.tdiv c := by exact_mod_cast Int.tdiv_nonneg h hc.le
    have h2 : (0 : ℚ) ≤ z.tmod c := by exact_mod_cast Int.tmod_nonneg c h
    have h3 : (0 : ℚ) ≤ (z.tmod c : ℚ) / c := by positivity
    rw [abs_of_nonneg h1, abs_of_nonneg h3, abs_of_nonneg (by linarith)]
  · have h1 : (z.tdiv c : ℚ) ≤ 0 := by
      have := Int.tdiv_nonneg (show 0 ≤ -z by omega) hc.le
      rw [Int.neg_tdiv] at this
      exact_mod_cast (by omega : z.tdiv c ≤ 0)
    have h2 : (z.tmod c : ℚ) ≤ 0 := by
      have := Int.tmod_nonneg c (show 0 ≤ -z by omega)
      rw [Int.neg_tmod] at this
      exact_mod_cast (by omega : z.tmod c ≤ 0)
    have h3 : (z.tmod c : ℚ) / c ≤ 0 := div_nonpos_of_nonpos_of_nonneg h2 hcq.le
    rw [abs_of_nonpos h1, abs_of_nonpos h3, abs_of_nonpos (by linarith)]
    ring

theorem abs_tdiv_le_self (z : Int) {c : Int} (hc : 0 < c) : |z.tdiv c| ≤ |z| := by
  have h := abs_tdiv_mul_le z c
  rw [abs_mul, abs_of_pos hc] at h
  exact le_trans (le_mul_of_one_le_right (abs_nonneg _) (by omega)) h

/-- A value that is already a `f64` is not changed by rounding. -/
theorem ofRat_f64Value {v : ℚ} (hv : |v| < 2 ^ 1023) (hw : |f64Value (ofRat v)| < 2 ^ 1023) :
    f64Value (ofRat (f64Value (ofRat v))) = f64Value (ofRat v) :=
  ofRat_exact hw (ofRat v) (ofRat_nearest hv).1 rfl

/-- The computed sum, when the integral part is zero. -/
theorem core_err_zero {z c : Int} (hc : 0 < c) (hc' : c ≤ 2 ^ 127) {β γ : ℚ}
    (hβ0 : 0 ≤ β) (hγ0 : 0 ≤ γ) (hβ : β ≤ unitErr) (hγ : γ ≤ unitErr) (hi : z.tdiv c = 0)
    (hB : |f64Value (ofInt (z.tmod c)) - (z.tmod c : Int)| ≤ β * |((z.tmod c : Int) : ℚ)|)
    (hC : |f64Value (ofInt c) - c| ≤ γ * |(c : ℚ)|) :
    |f64Value (f64Core z c) - z / c| ≤
      (β + γ + unitErr + 8 * unitErr ^ 2) * |(z : ℚ) / c| := by
  have hu0 := unitErr_pos
  have hu1 := unitErr_lt
  have hr := abs_tmod_lt z hc
  obtain ⟨hDf, hD⟩ := frac_err hc hc' (by omega) hβ0 hγ0 hβ hγ hB hC
  have hv := tdiv_tmod_q z hc
  rw [hi, Int.cast_zero, zero_add] at hv
  unfold f64Core F64.add
  rw [toRat_eq, toRat_eq, hi, ofInt_exact (by norm_num), Int.cast_zero, zero_add]
  have hcq : (0 : ℚ) < c := by exact_mod_cast hc
  have hlt1 : |((z.tmod c : Int) : ℚ) / c| ≤ 1 := by
    rw [abs_div, abs_of_pos hcq, div_le_one hcq]
    exact_mod_cast hr.le
  have hD2 : |f64Value (F64.div (ofInt (z.tmod c)) (ofInt c))| < 2 ^ 1023 := by
    have h1 := abs_sub_abs_le_abs_sub (f64Value (F64.div (ofInt (z.tmod c)) (ofInt c)))
      (((z.tmod c : Int) : ℚ) / c)
    have h2 : (β + γ + unitErr + 8 * unitErr ^ 2) * |((z.tmod c : Int) : ℚ) / c| ≤ 1 * 1 := by
      gcongr
      nlinarith
    have h3 : (2 : ℚ) < 2 ^ 1023 := by
      conv_lhs => rw [← pow_one (2 : ℚ)]
      exact pow_lt_pow_right₀ (by norm_num) (by norm_num)
    refine lt_of_le_of_lt ?_ h3
    linarith
  rw [hv, ofRat_exact hD2 (F64.div (ofInt (z.tmod c)) (ofInt c)) ?_ rfl]
  · exact hD
  · exact hDf

/-- The computed sum, when the integral part is not zero. -/
theorem core_err_ne {z c : Int} (hc : 0 < c) (hc' : c ≤ 2 ^ 127) (hz : |z| ≤ 2 ^ 127) {α β γ : ℚ}
    (hα0 : 0 ≤ α) (hα : α ≤ unitErr)
    (hβ0 : 0 ≤ β) (hγ0 : 0 ≤ γ) (hβ : β ≤ unitErr) (hγ : γ ≤ unitErr) (hi : z.tdiv c ≠ 0)
    (hA : |f64Value (ofInt (z.tdiv c)) - (z.tdiv c : Int)| ≤ α * |((z.tdiv c : Int) : ℚ)|)
    (hB : |f64Value (ofInt (z.tmod c)) - (z.tmod c : Int)| ≤ β * |((z.tmod c : Int) : ℚ)|)
    (hC : |f64Value (ofInt c) - c| ≤ γ * |(c : ℚ)|) :
    |f64Value (f64Core z c) - z / c| ≤
      α * |((z.tdiv c : Int) : ℚ)| +
      (β + γ + unitErr + 8 * unitErr ^ 2) * |((z.tmod c : Int) : ℚ) / c| +
      (unitErr + 5 * unitErr ^ 2) * |(z : ℚ) / c| := by
  have hu0 := unitErr_pos
  have hu1 := unitErr_lt
  have hr := abs_tmod_lt z hc
  obtain ⟨hDf, hD⟩ := frac_err hc hc' (by omega) hβ0 hγ0 hβ hγ hB hC
  have hv := tdiv_tmod_q z hc
  have hva := abs_tdiv_tmod z hc
  have hid := abs_tdiv_le_self z hc
  unfold f64Core F64.add
  rw [toRat_eq, toRat_eq]
  have hcq : (0 : ℚ) < c := by exact_mod_cast hc
  have hlt1 : |((z.tmod c : Int) : ℚ) / c| ≤ 1 := by
    rw [abs_div, abs_of_pos hcq, div_le_one hcq]
    exact_mod_cast hr.le
  have hi1 : (1 : ℚ) ≤ |((z.tdiv c : Int) : ℚ)| := by exact_mod_cast Int.one_le_abs hi
  have hi2 : |((z.tdiv c : Int) : ℚ)| ≤ 2 ^ 127 := by exact_mod_cast le_trans hid hz
  generalize f64Value (F64.div (ofInt (z.tmod c)) (ofInt c)) = D at *
  generalize f64Value (ofInt (z.tdiv c)) = A at *
  generalize ((z.tmod c : Int) : ℚ) / c = f at *
  generalize ((z.tdiv c : Int) : ℚ) = i at *
  generalize (z : ℚ) / c = v at *
  have hK : (β + γ + unitErr + 8 * unitErr ^ 2) * |f| ≤ 4 * unitErr * |f| := by
    gcongr
    nlinarith
  have hAi : α * |i| ≤ unitErr * |i| := by gcongr
  have hf0 := abs_nonneg f
  have hs1 : |A + D - v| ≤ α * |i| + (β + γ + unitErr + 8 * unitErr ^ 2) * |f| := by
    rw [hv, show A + D - (i + f) = (A - i) + (D - f) by ring]
    exact le_trans (abs_add_le _ _) (add_le_add hA hD)
  have hs2 : |A + D - v| ≤ 4 * unitErr * |v| := by
    rw [hva]; nlinarith
  have hs3 : |A + D| ≤ (1 + 4 * unitErr) * |v| := by
    have := abs_sub_abs_le_abs_sub (A + D) v
    linarith
  have hs4 : (1 - 4 * unitErr) * |v| ≤ |A + D| := by
    have := abs_sub_abs_le_abs_sub v (A + D)
    rw [abs_sub_comm] at this
    linarith
  have hround : |f64Value (ofRat (A + D)) - (A + D)| ≤ unitErr * |A + D| := by
    refine ofRat_err ?_ (Or.inr ?_)
    · have h1 : |v| ≤ 2 ^ 128 := by
        have : (2 : ℚ) ^ 128 = 2 * 2 ^ 127 := by norm_num
        have : (1 : ℚ) ≤ 2 ^ 127 := by norm_num
        rw [hva]; linarith
      have h2 : (1 + 4 * unitErr) * |v| ≤ 2 * 2 ^ 128 := by
        gcongr
        linarith
      have h3 : (2 : ℚ) * 2 ^ 128 ≤ 2 ^ 200 := by norm_num
      linarith
    · have h1 : (1 : ℚ) ≤ |v| := by rw [hva]; linarith
      have h2 : (1 : ℚ) / 2 ^ 200 ≤ 1 / 2 := by norm_num
      nlinarith
  have h1 := abs_sub_le (f64Value (ofRat (A + D))) (A + D) v
  have h2 : unitErr * |A + D| ≤ unitErr * ((1 + 4 * unitErr) * |v|) := by gcongr
  have h3 : unitErr * ((1 + 4 * unitErr) * |v|) ≤ (unitErr + 5 * unitErr ^ 2) * |v| := by
    nlinarith [abs_nonneg v, mul_nonneg (sq_nonneg unitErr) (abs_nonneg v)]
  linarith

end Fixnum
