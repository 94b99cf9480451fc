import Verif.Float
import Verif.SpecBasic
import Verif.PowerBasic
import Mathlib.Algebra.Order.Field.Power
import Mathlib.Data.Nat.Bitwise

/-! # Lemmas about the conversion from `f64` -/

namespace Fixnum

open Res Spec F64

variable {L : Layout} {P : Nat} {ε : Type}

/-! ## Machine helpers -/

theorem i32_ok (cfg : Cfg) {z : Int} (h1 : -2147483648 ≤ z) (h2 : z ≤ 2147483647) :
    (i32 cfg z : Res ε Int) = .ok z := by
  unfold i32
  rw [if_pos ⟨by unfold iMin; norm_num; exact h1, by unfold iMax; norm_num; exact h2⟩]

theorem asU32_ok {z : Int} (h1 : 0 ≤ z) (h2 : z ≤ 2147483647) : asU32 z = z.toNat := by
  unfold asU32; rw [Int.emod_eq_of_lt h1 (by omega)]

theorem asUsize_ok {z : Int} (h1 : 0 ≤ z) (h2 : z ≤ 2147483647) : asUsize z = z.toNat := by
  unfold asUsize; rw [Int.emod_eq_of_lt h1 (by omega)]

theorem idx_some {α : Type} {l : List α} {i : Nat} {a : α} (h : l[i]? = some a) :
    (idx l i : Res ε α) = .ok a := by
  unfold idx; rw [h]

theorem u128_arith_ok (cfg : Cfg) {n : Nat} (h : n < 2 ^ 128) :
    (U128.arith cfg n : Res ε Nat) = .ok n := by
  unfold U128.arith; rw [if_pos h]

theorem leadingZeros_lt {a : Nat} (h0 : 0 < a) (h : a < 2 ^ 128) :
    2 ^ (127 - U128.leadingZeros a) ≤ a ∧ a < 2 ^ (128 - U128.leadingZeros a) ∧
      U128.leadingZeros a ≤ 127 := by
  have hl : Nat.log2 a < 128 := (Nat.log2_lt (by omega)).2 h
  unfold U128.leadingZeros
  rw [if_neg (by omega)]
  refine ⟨?_, ?_, by omega⟩
  · rw [show 127 - (127 - Nat.log2 a) = Nat.log2 a by omega]
    exact Nat.log2_self_le (by omega)
  · rw [show 128 - (127 - Nat.log2 a) = Nat.log2 a + 1 by omega]
    exact Nat.lt_log2_self

theorem trailing_spec : ∀ (k a : Nat), U128.trailing k a ≤ k ∧ 2 ^ U128.trailing k a ∣ a ∧
    (U128.trailing k a < k → (a / 2 ^ U128.trailing k a) % 2 = 1) ∧
    ∀ j, j ≤ k → 2 ^ j ∣ a → j ≤ U128.trailing k a := by
  intro k
  induction k with
  | zero => intro a; simp [U128.trailing]
  | succ k ih =>
    intro a
    unfold U128.trailing
    split
    · rename_i h
      refine ⟨by omega, by simp, fun _ => by simpa using h, ?_⟩
      intro j _ hj
      by_contra hn
      have : 2 ∣ a := dvd_trans (dvd_pow_self 2 (by omega)) hj
      omega
    · rename_i h
      obtain ⟨h1, h2, h3, h4⟩ := ih (a / 2)
      have ha : a = 2 * (a / 2) := by omega
      refine ⟨by omega, ?_, ?_, ?_⟩
      · rw [pow_succ']
        conv_rhs => rw [ha]
        exact Nat.mul_dvd_mul_left 2 h2
      · intro hk
        rw [pow_succ', ← Nat.div_div_eq_div_mul]
        exact h3 (by omega)
      · intro j hj hd
        rcases j with _ | j
        · omega
        · have : 2 ^ j ∣ a / 2 := by
            rw [ha, pow_succ'] at hd
            exact Nat.dvd_of_mul_dvd_mul_left (by norm_num) hd
          have := h4 j (by omega) this
          omega

/-! ## Tables -/

theorem maxExponent5_table : ∀ i : Fin 128, ∃ m : Nat, m ≤ 54 ∧
    PowerTable.maxExponent5[i.val]? = some (m : Int) ∧ 5 ^ m ≤ 2 ^ i.val ∧
    (3 ≤ i.val → 1 ≤ m) := by
  have h : ∀ i : Fin 128, ∃ m : Fin 55,
    PowerTable.maxExponent5[i.val]? = some (m.val : Int) ∧ 5 ^ m.val ≤ 2 ^ i.val ∧
    (3 ≤ i.val → 1 ≤ m.val) := by decide +kernel
  intro i
  obtain ⟨m, h1⟩ := h i
  exact ⟨m.val, by omega, h1⟩

theorem powersOf5_table : ∀ k : Fin 56, PowerTable.powersOf5[k.val]? = some (5 ^ k.val) := by
  decide +kernel

theorem powersOf10_table : ∀ k : Fin 39,
    PowerTable.powersOf10[k.val]? = some (10 ^ k.val, 4 * ((10 ^ k.val - 1) / 9)) := by
  decide +kernel

theorem powersOf10_none {k : Nat} (h : 39 ≤ k) : PowerTable.powersOf10[k]? = none :=
  List.getElem?_eq_none (by
    have : PowerTable.powersOf10.length = 39 := by decide +kernel
    omega)

theorem nextExponent10_table : ∀ n : Fin 128, ∃ d : Nat, d ≤ 39 ∧
    PowerTable.nextExponent10[127 - n.val]? = some (d : Int) ∧ 2 ^ n.val ≤ 10 ^ d ∧
    (d = 0 ∨ 10 ^ (d - 1) < 2 ^ n.val) := by
  have h : ∀ n : Fin 128, ∃ d : Fin 40,
    PowerTable.nextExponent10[127 - n.val]? = some (d.val : Int) ∧ 2 ^ n.val ≤ 10 ^ d.val ∧
    (d.val = 0 ∨ 10 ^ (d.val - 1) < 2 ^ n.val) := by decide +kernel
  intro i
  obtain ⟨m, h1⟩ := h i
  exact ⟨m.val, by omega, h1⟩

/-! ## Scaling -/

/-- The number represented by the working variables. -/
def amount (s : Scaled) : ℚ := s.bits * 10 ^ s.exponent10 * 5 ^ s.exponent5

/-- Relative error of one lossy step. -/
def stepErr : ℚ := 5 / 2 ^ 127

theorem stepErr_pos : 0 < stepErr := by unfold stepErr; positivity

theorem amount_pos {s : Scaled} (h : 0 < s.bits) : 0 < amount s := by
  unfold amount
  have : (0 : ℚ) < s.bits := by exact_mod_cast h
  positivity

theorem amount_half (b : ℚ) (e5 e10 : Int) :
    b / 2 * 10 ^ (e10 + 1) * 5 ^ (e5 - 1) = b * 10 ^ e10 * (5 : ℚ) ^ e5 := by
  rw [zpow_add_one₀ (by norm_num), zpow_sub_one₀ (by norm_num)]
  ring

theorem amount_five (b : ℚ) (e5 e10 : Int) :
    b * 5 * 10 ^ e10 * 5 ^ (e5 - 1) = b * 10 ^ e10 * (5 : ℚ) ^ e5 := by
  rw [zpow_sub_one₀ (by norm_num)]
  ring

theorem amount_double (b : ℚ) (e5 e10 : Int) :
    b * 2 * 10 ^ (e10 - 1) * 5 ^ (e5 + 1) = b * 10 ^ e10 * (5 : ℚ) ^ e5 := by
  rw [zpow_add_one₀ (by norm_num), zpow_sub_one₀ (by norm_num)]
  ring

theorem amount_fifth (b : ℚ) (e5 e10 : Int) :
    b / 5 * 10 ^ e10 * 5 ^ (e5 + 1) = b * 10 ^ e10 * (5 : ℚ) ^ e5 := by
  rw [zpow_add_one₀ (by norm_num)]
  ring

/-- `y` approximates `x` from below after at most `n` lossy steps. -/
def Below (n : Nat) (x y : ℚ) : Prop := y ≤ x ∧ x * (1 - n * stepErr) ≤ y

theorem Below.refl {x : ℚ} (h : 0 ≤ x) (n : Nat) : Below n x x := by
  refine ⟨le_refl _, ?_⟩
  have : 0 ≤ (n : ℚ) * stepErr := mul_nonneg (by positivity) stepErr_pos.le
  nlinarith

theorem Below.step {x y z : ℚ} {n : Nat} (hx : 0 ≤ x) (h1 : y ≤ x) (h2 : x * (1 - stepErr) ≤ y)
    (h : Below n y z) : Below (n + 1) x z := by
  obtain ⟨h3, h4⟩ := h
  refine ⟨h3.trans h1, ?_⟩
  have hs := stepErr_pos.le
  have hn : 0 ≤ (n : ℚ) * stepErr := mul_nonneg (by positivity) hs
  push_cast
  by_cases hc : (n : ℚ) * stepErr ≤ 1
  · have h5 : x * (1 - stepErr) * (1 - n * stepErr) ≤ y * (1 - n * stepErr) :=
      mul_le_mul_of_nonneg_right h2 (by linarith)
    have h6 : 0 ≤ x * (stepErr * (n * stepErr)) := by positivity
    nlinarith
  · have hy : y * (1 - n * stepErr) ≥ x * (1 - n * stepErr) := by nlinarith
    have : 0 ≤ x * stepErr := by positivity
    nlinarith

theorem Below.mono {x y : ℚ} {n m : Nat} (hx : 0 ≤ x) (hnm : n ≤ m) (h : Below n x y) :
    Below m x y := by
  refine ⟨h.1, le_trans ?_ h.2⟩
  have : (n : ℚ) ≤ m := by exact_mod_cast hnm
  have := stepErr_pos.le
  have : (n : ℚ) * stepErr ≤ m * stepErr := by nlinarith
  nlinarith

theorem even_or_odd_and (b : Nat) : (b &&& 1 = 0 ∧ b = 2 * (b / 2)) ∨
    (b &&& 1 ≠ 0 ∧ b = 2 * (b / 2) + 1) := by
  rw [Nat.and_one_is_mod]
  omega

theorem absorb_spec (cfg : Cfg) : ∀ (fuel : Nat) (s : Scaled), 0 < s.bits → s.bits < 2 ^ 128 →
    0 ≤ s.exponent5 → s.exponent5 ≤ fuel → s.exponent5 ≤ 3000 → -3000 ≤ s.exponent10 →
    s.exponent10 + s.exponent5 ≤ 3000 →
    ∃ t, (absorb cfg fuel s : Res ε _) = .ok t ∧ 0 < t.bits ∧ t.bits < 2 ^ 128 ∧
      t.exponent5 = 0 ∧ s.exponent10 ≤ t.exponent10 ∧
      t.exponent10 ≤ s.exponent10 + s.exponent5 ∧
      Below s.exponent5.toNat (amount s) (amount t) := by
  intro fuel
  induction fuel with
  | zero =>
    intro s hb hb' h0 h1 _ _ _
    have h : s.exponent5 = 0 := by omega
    unfold absorb
    rw [if_neg (by omega)]
    exact ⟨s, rfl, hb, hb', h, le_refl _, by omega, .refl (amount_pos hb).le _⟩
  | succ fuel ih =>
    rintro ⟨b, e5, e10⟩ hb hb' h0 h1 h2 h3 h4
    dsimp only at hb hb' h0 h1 h2 h3 h4 ⊢
    by_cases h5 : 0 < e5
    swap
    · unfold absorb
      rw [if_neg (by omega)]
      exact ⟨_, rfl, hb, hb', by dsimp only; omega, le_refl _, by dsimp only; omega,
        .refl (amount_pos hb).le _⟩
    have hpos : 0 < amount ⟨b, e5, e10⟩ := amount_pos hb
    have hn : e5.toNat = (e5 - 1).toNat + 1 := by omega
    have hp : (0 : ℚ) < 10 ^ e10 * 5 ^ e5 := by positivity
    have hbq : (0 : ℚ) < b := by exact_mod_cast hb
    have half : ∀ (c : Nat), 0 < c → (2 * c = b ∨ (2 * c + 1 = b ∧ 2 ^ 128 ≤ b * 5)) →
        ∃ t, (do
          let e10 ← i32 cfg (e10 + 1)
          let e5 ← i32 cfg (e5 - 1)
          absorb cfg fuel ⟨c, e5, e10⟩ : Res ε _) = .ok t ∧ 0 < t.bits ∧ t.bits < 2 ^ 128 ∧
        t.exponent5 = 0 ∧ e10 ≤ t.exponent10 ∧ t.exponent10 ≤ e10 + e5 ∧
        Below e5.toNat (amount ⟨b, e5, e10⟩) (amount t) := by
      intro c hc hcb
      obtain ⟨t, k1, k2, k3, k4, k5, k6, k7⟩ := ih ⟨c, e5 - 1, e10 + 1⟩ hc (by dsimp only; omega)
        (by dsimp only; omega) (by dsimp only; omega) (by dsimp only; omega)
        (by dsimp only; omega) (by dsimp only; omega)
      dsimp only at k5 k6 k7
      rw [i32_ok cfg (by omega) (by omega), ok_bind, i32_ok cfg (by omega) (by omega), ok_bind]
      refine ⟨t, k1, k2, k3, k4, by omega, by omega, ?_⟩
      rw [hn]
      have e : amount ⟨c, e5 - 1, e10 + 1⟩ = 2 * c * (10 ^ e10 * 5 ^ e5) := by
        unfold amount
        dsimp only
        rw [show (c : ℚ) = 2 * c / 2 by ring, amount_half]; ring
      have e' : amount ⟨b, e5, e10⟩ = b * (10 ^ e10 * 5 ^ e5) := by unfold amount; ring
      refine Below.step hpos.le ?_ ?_ k7
      · rw [e, e']
        refine mul_le_mul_of_nonneg_right ?_ hp.le
        rcases hcb with h | h
        · exact_mod_cast h.le
        · have : 2 * c ≤ b := by omega
          exact_mod_cast this
      · rw [e, e']
        have : (b : ℚ) * (1 - stepErr) ≤ 2 * c := by
          rcases hcb with h | ⟨h, h'⟩
          · have : (2 : ℚ) * c = b := by exact_mod_cast h
            have := stepErr_pos
            nlinarith
          · have h6 : (2 : ℚ) * c + 1 = b := by exact_mod_cast h
            have h7 : (2 : ℚ) ^ 128 ≤ b * 5 := by exact_mod_cast h'
            unfold stepErr
            have : (b : ℚ) * (5 / 2 ^ 127) ≥ 1 := by
              rw [← mul_div_assoc, ge_iff_le, le_div_iff₀ (by positivity)]
              have : (2 : ℚ) ^ 128 = 2 * 2 ^ 127 := by norm_num
              have : (0 : ℚ) < 2 ^ 127 := by positivity
              linarith
            linarith
        nlinarith
    unfold absorb
    rw [if_pos (show e5 > 0 from h5), Nat.shiftRight_eq_div_pow, pow_one]
    rcases even_or_odd_and b with ⟨h6, h7⟩ | ⟨h6, h7⟩
    · rw [if_pos h6]
      exact half _ (by omega) (.inl (by omega))
    · rw [if_neg h6]
      unfold U128.checkedMul
      by_cases h8 : b * 5 < 2 ^ 128
      · rw [if_pos h8]
        dsimp only
        rw [i32_ok cfg (by omega) (by omega), ok_bind]
        obtain ⟨t, k1, k2, k3, k4, k5, k6, k7⟩ := ih ⟨b * 5, e5 - 1, e10⟩ (by dsimp only; omega) h8
          (by dsimp only; omega) (by dsimp only; omega) (by dsimp only; omega)
          (by dsimp only; omega) (by dsimp only; omega)
        dsimp only at k5 k6 k7
        refine ⟨t, k1, k2, k3, k4, by omega, by omega, ?_⟩
        have e : amount ⟨b * 5, e5 - 1, e10⟩ = amount ⟨b, e5, e10⟩ := by
          unfold amount
          push_cast
          exact amount_five _ _ _
        rw [e] at k7
        exact k7.mono hpos.le (by omega)
      · rw [if_neg h8]
        exact half _ (by omega) (.inr ⟨by omega, by omega⟩)

theorem absorb_odd (cfg : Cfg) : ∀ (n fuel b : Nat) (e10 : Int), b % 2 = 1 →
    b * 5 ^ n < 2 ^ 128 → n ≤ fuel → n ≤ 3000 →
    (absorb cfg fuel ⟨b, n, e10⟩ : Res ε _) = .ok ⟨b * 5 ^ n, 0, e10⟩ := by
  intro n
  induction n with
  | zero =>
    intro fuel b e10 _ _ _ _
    rcases fuel with _ | fuel <;> unfold absorb <;> simp
  | succ n ih =>
    intro fuel b e10 ho hb hf hn
    obtain ⟨fuel, rfl⟩ : ∃ m, fuel = m + 1 := ⟨fuel - 1, by omega⟩
    have e : b * 5 * 5 ^ n = b * 5 ^ (n + 1) := by ring
    have h5 : b * 5 < 2 ^ 128 := by
      refine lt_of_le_of_lt ?_ hb
      rw [← e]
      exact Nat.le_mul_of_pos_right _ (by positivity)
    unfold absorb
    rw [if_pos (by push_cast; omega), if_neg (by rw [Nat.and_one_is_mod]; omega)]
    unfold U128.checkedMul
    rw [if_pos h5]
    dsimp only
    rw [i32_ok cfg (by push_cast; omega) (by push_cast; omega), ok_bind]
    rw [show ((n + 1 : Nat) : Int) - 1 = n by push_cast; omega,
      ih fuel (b * 5) e10 (by omega) (by rw [e]; exact hb) (by omega) (by omega), e]

theorem multiply5_spec (cfg : Cfg) {b : Nat} {e5 : Int} (hb : 0 < b) (hb' : b < 2 ^ 53)
    (h5 : 0 < e5) (h5' : e5 ≤ 3000) :
    ∃ k : Nat, (multiply5 cfg b e5 : Res ε _) = .ok (b * 5 ^ k, (k : Int)) ∧ 1 ≤ k ∧
      (k : Int) ≤ e5 ∧ b * 5 ^ k < 2 ^ 128 := by
  have hp : (2 : Nat) ^ 53 < 2 ^ 128 := Nat.pow_lt_pow_right (by norm_num) (by norm_num)
  obtain ⟨h1, h2, h3⟩ := leadingZeros_lt hb (by omega)
  have hz : 75 ≤ U128.leadingZeros b := by
    by_contra hn
    have : (2 : Nat) ^ 53 ≤ 2 ^ (127 - U128.leadingZeros b) :=
      Nat.pow_le_pow_right (by norm_num) (by omega)
    omega
  obtain ⟨m, m1, m2, m3, m4⟩ := maxExponent5_table ⟨U128.leadingZeros b - 1, by omega⟩
  dsimp only at m2 m3 m4
  obtain ⟨k, hk⟩ : ∃ k : Nat, min e5 (m : Int) = k := ⟨(min e5 (m : Int)).toNat, by omega⟩
  have hk1 : 1 ≤ k := by have := m4 (by omega); omega
  have hk54 : k ≤ 54 := by omega
  have hlt : b * 5 ^ k < 2 ^ 128 := by
    have h4 : 5 ^ k ≤ 2 ^ (U128.leadingZeros b - 1) :=
      le_trans (Nat.pow_le_pow_right (by norm_num) (by omega)) m3
    have h6 : b * 5 ^ k < 2 ^ (128 - U128.leadingZeros b) * 2 ^ (U128.leadingZeros b - 1) :=
      lt_of_lt_of_le (Nat.mul_lt_mul_of_pos_right h2 (by positivity)) (Nat.mul_le_mul_left _ h4)
    refine lt_trans h6 ?_
    rw [← pow_add]
    exact Nat.pow_lt_pow_right (by norm_num) (by omega)
  unfold multiply5
  dsimp only
  rw [if_neg (by omega), idx_some m2, ok_bind, hk, asUsize_ok (by omega) (by omega),
    Int.toNat_natCast, idx_some (powersOf5_table ⟨k, by omega⟩), ok_bind, u128_arith_ok cfg hlt,
    ok_bind]
  by_cases hc : (k : Int) < e5
  · rw [if_pos hc]
    unfold U128.checkedMul
    by_cases h8 : b * 5 ^ k * 5 < 2 ^ 128
    · rw [if_pos h8]
      dsimp only
      rw [i32_ok cfg (by omega) (by omega), ok_bind]
      refine ⟨k + 1, ?_, by omega, by push_cast; omega, by rw [pow_succ, ← mul_assoc]; exact h8⟩
      rw [pow_succ, ← mul_assoc]; push_cast; rfl
    · rw [if_neg h8]
      exact ⟨k, rfl, hk1, by omega, hlt⟩
  · rw [if_neg hc]
    exact ⟨k, rfl, hk1, by omega, hlt⟩

theorem amount_shift (b x : Nat) (e5 e10 : Int) (h : 2 ^ x ∣ b) :
    amount ⟨b / 2 ^ x, e5 - x, e10 + x⟩ = amount ⟨b, e5, e10⟩ := by
  obtain ⟨c, rfl⟩ := h
  unfold amount
  dsimp only
  rw [Nat.mul_div_cancel_left _ (by positivity), zpow_sub₀ (by norm_num), zpow_add₀ (by norm_num),
    zpow_natCast, zpow_natCast, show (10 : ℚ) = 2 * 5 by norm_num, mul_pow]
  push_cast
  field_simp

theorem amount_mul5 (b k : Nat) (e5 e10 : Int) :
    amount ⟨b * 5 ^ k, e5 - k, e10⟩ = amount ⟨b, e5, e10⟩ := by
  unfold amount
  dsimp only
  rw [zpow_sub₀ (by norm_num), zpow_natCast]
  push_cast
  field_simp

theorem scaleDown_nonpos (cfg : Cfg) {s : Scaled} (h : s.exponent5 ≤ 0) :
    (scaleDown cfg s : Res ε _) = .ok s := by
  unfold scaleDown; rw [if_neg (by omega)]

/-- The shape of `scaleDown` after the trailing zeros are gone. -/
theorem scaleDown_shift (cfg : Cfg) {b n : Nat} (hb : 0 < b) (hb' : b < 2 ^ 53) (hn : 0 < n)
    (hn' : n ≤ 1100) :
    ∃ x : Nat, x ≤ n ∧ 2 ^ x ∣ b ∧ (2 ^ n ∣ b → x = n) ∧ (x < n → (b / 2 ^ x) % 2 = 1) ∧
      (scaleDown cfg ⟨b, n, -n⟩ : Res ε _) =
        if x < n then do
          let (bits, reduced) ← multiply5 cfg (b / 2 ^ x) ((n : Int) - x)
          if reduced = 0 then do
            let exponent10 ← i32 cfg (-(n : Int) + x + 1)
            let exponent5 ← i32 cfg ((n : Int) - x - 1)
            absorb cfg exponent5.toNat ⟨bits >>> 1, exponent5, exponent10⟩
          else do
            let exponent5 ← i32 cfg ((n : Int) - x - reduced)
            absorb cfg exponent5.toNat ⟨bits, exponent5, -(n : Int) + x⟩
        else .ok ⟨b / 2 ^ x, (n : Int) - x, -(n : Int) + x⟩ := by
  obtain ⟨t1, t2, t3, t4⟩ := trailing_spec 128 b
  have t5 : U128.trailing 128 b < 128 := by
    by_contra hc
    have h1 : U128.trailing 128 b = 128 := by omega
    rw [h1] at t2
    have := Nat.le_of_dvd hb t2
    have hp : (2 : Nat) ^ 53 < 2 ^ 128 := Nat.pow_lt_pow_right (by norm_num) (by norm_num)
    omega
  refine ⟨min (U128.trailing 128 b) n, by omega, ?_, ?_, ?_, ?_⟩
  · exact dvd_trans (Nat.pow_dvd_pow 2 (by omega)) t2
  · intro hd
    have h53 : n < 128 := by
      have h1 := Nat.le_of_dvd hb hd
      have : (2 : Nat) ^ n < 2 ^ 53 := by omega
      have := (Nat.pow_lt_pow_iff_right (by norm_num)).1 this
      omega
    have := t4 n (by omega) hd
    omega
  · intro h
    rw [show min (U128.trailing 128 b) n = U128.trailing 128 b by omega]
    exact t3 t5
  · unfold scaleDown U128.trailingZeros
    dsimp only
    rw [if_pos (by omega), asU32_ok (by omega) (by omega), Int.toNat_natCast,
      show (min ((U128.trailing 128 b : Nat) : Int) (n : Int)) =
        ((min (U128.trailing 128 b) n : Nat) : Int) by push_cast; rfl]
    rw [i32_ok cfg (by push_cast; omega) (by push_cast; omega), ok_bind,
      i32_ok cfg (by push_cast; omega) (by push_cast; omega), ok_bind, Int.toNat_natCast,
      Nat.shiftRight_eq_div_pow]
    by_cases hc : min (U128.trailing 128 b) n < n
    · rw [if_pos (by omega), if_pos hc]
    · rw [if_neg (by omega), if_neg hc]

theorem scaleDown_spec (cfg : Cfg) {b n : Nat} (hb : 0 < b) (hb' : b < 2 ^ 53) (hn : 0 < n)
    (hn' : n ≤ 1100) :
    ∃ t, (scaleDown cfg ⟨b, n, -n⟩ : Res ε _) = .ok t ∧ 0 < t.bits ∧ t.bits < 2 ^ 128 ∧
      t.exponent5 = 0 ∧ -1100 ≤ t.exponent10 ∧ t.exponent10 ≤ 0 ∧
      Below 1100 (amount ⟨b, n, -n⟩) (amount t) := by
  have hpos := (amount_pos (s := ⟨b, n, -n⟩) hb).le
  have hp : (2 : Nat) ^ 53 < 2 ^ 128 := Nat.pow_lt_pow_right (by norm_num) (by norm_num)
  obtain ⟨x, hx, hd, -, -, h⟩ := scaleDown_shift (ε := ε) cfg hb hb' hn hn'
  have hc : 0 < b / 2 ^ x := Nat.div_pos (Nat.le_of_dvd hb hd) (by positivity)
  have hc' : b / 2 ^ x ≤ b := Nat.div_le_self _ _
  have hs := amount_shift b x n (-n) hd
  rw [h]
  by_cases hxn : x < n
  · rw [if_pos hxn]
    obtain ⟨k, k1, k2, k3, k4⟩ := multiply5_spec (ε := ε) cfg (b := b / 2 ^ x) (e5 := (n : Int) - x)
      hc (by omega) (by omega) (by omega)
    rw [k1, ok_bind]
    dsimp only
    rw [if_neg (by omega), i32_ok cfg (by omega) (by omega), ok_bind]
    obtain ⟨t, j1, j2, j3, j4, j5, j6, j7⟩ := absorb_spec (ε := ε) cfg ((n : Int) - x - k).toNat
      ⟨b / 2 ^ x * 5 ^ k, (n : Int) - x - k, -(n : Int) + x⟩
      (by dsimp only; positivity) k4 (by dsimp only; omega) (by dsimp only; omega)
      (by dsimp only; omega) (by dsimp only; omega) (by dsimp only; omega)
    dsimp only at j5 j6 j7
    refine ⟨t, j1, j2, j3, j4, by omega, by omega, ?_⟩
    rw [amount_mul5, hs] at j7
    exact j7.mono hpos (by omega)
  · rw [if_neg hxn]
    refine ⟨_, rfl, hc, by dsimp only; omega, by dsimp only; omega, by dsimp only; omega,
      by dsimp only; omega, ?_⟩
    rw [hs]
    exact .refl hpos _

/-- Exact integers. -/
theorem scaleDown_int (cfg : Cfg) {b n : Nat} (hb : 0 < b) (hb' : b < 2 ^ 53) (hn : 0 < n)
    (hn' : n ≤ 1100) (hd : 2 ^ n ∣ b) :
    (scaleDown cfg ⟨b, n, -n⟩ : Res ε _) = .ok ⟨b / 2 ^ n, 0, 0⟩ := by
  obtain ⟨x, hx, -, hxn, -, h⟩ := scaleDown_shift (ε := ε) cfg hb hb' hn hn'
  have := hxn hd
  subst this
  rw [h, if_neg (by omega)]
  simp

/-- Exact fractions `c / 2^k` with `c·5^k < 2^128`. -/
theorem scaleDown_dyadic (cfg : Cfg) {b n x : Nat} (hb : 0 < b) (hb' : b < 2 ^ 53)
    (hn' : n ≤ 1100) (hxn : x < n) (hd : 2 ^ x ∣ b) (ho : (b / 2 ^ x) % 2 = 1)
    (hlt : b / 2 ^ x * 5 ^ (n - x) < 2 ^ 128) :
    (scaleDown cfg ⟨b, n, -n⟩ : Res ε _) =
      .ok ⟨b / 2 ^ x * 5 ^ (n - x), 0, -((n - x : Nat) : Int)⟩ := by
  obtain ⟨y, hy, hyd, hyn, hyo, h⟩ := scaleDown_shift (ε := ε) cfg hb hb' (by omega : 0 < n) hn'
  have uniq : ∀ {i j : Nat}, 2 ^ i ∣ b → 2 ^ j ∣ b → (b / 2 ^ i) % 2 = 1 → j ≤ i := by
    intro i j hi hj ho
    by_contra hc
    have h1 : 2 ^ (i + 1) ∣ b := dvd_trans (Nat.pow_dvd_pow 2 (by omega)) hj
    obtain ⟨c, rfl⟩ := h1
    rw [pow_succ, mul_assoc, Nat.mul_div_cancel_left _ (by positivity)] at ho
    omega
  have hyx : y = x := by
    have h1 : y ≤ x := uniq hd hyd ho
    have h2 := uniq hyd hd (hyo (by omega))
    omega
  subst hyx
  have hc : 0 < b / 2 ^ y := Nat.div_pos (Nat.le_of_dvd hb hd) (by positivity)
  have hc' : b / 2 ^ y ≤ b := Nat.div_le_self _ _
  rw [h, if_pos hxn]
  obtain ⟨k, k1, k2, k3, k4⟩ := multiply5_spec (ε := ε) cfg (b := b / 2 ^ y) (e5 := (n : Int) - y)
    hc (by omega) (by omega) (by omega)
  rw [k1, ok_bind]
  dsimp only
  rw [if_neg (by omega), i32_ok cfg (by omega) (by omega), ok_bind]
  have e : (n : Int) - y - k = ((n - y - k : Nat) : Int) := by omega
  have e' : b / 2 ^ y * 5 ^ k * 5 ^ (n - y - k) = b / 2 ^ y * 5 ^ (n - y) := by
    rw [mul_assoc, ← pow_add]; congr 2; omega
  rw [e, absorb_odd cfg _ _ _ _ (by
      rw [Nat.mul_mod, ho, Nat.pow_mod]; simp) (by rw [e']; exact hlt) (by simp) (by omega), e']
  congr 2
  omega

theorem and_top {b : Nat} (h : b < 2 ^ 128) : b &&& 2 ^ 127 = 0 ↔ b < 2 ^ 127 := by
  rw [Nat.and_two_pow]
  have h2 : (2 : Nat) ^ 128 = 2 * 2 ^ 127 := by norm_num
  have h0 : (0 : Nat) < 2 ^ 127 := by positivity
  generalize hM : (2 : Nat) ^ 127 = M at *
  by_cases hc : b < M
  · rw [Nat.testBit_lt_two_pow (by rw [hM]; exact hc)]
    simp [hc]
  · have h3 : b.testBit 127 = true := by
      rw [Nat.testBit_eq_decide_div_mod_eq, hM]
      have : b / M = 1 := by
        apply Nat.div_eq_of_lt_le <;> omega
      rw [this]; rfl
    rw [h3]
    constructor
    · intro h; simp at h; omega
    · intro h; omega

theorem scaleUp_spec (cfg : Cfg) : ∀ (fuel : Nat) (s : Scaled), 0 < s.bits → s.bits < 2 ^ 128 →
    s.exponent5 ≤ 0 → -s.exponent5 ≤ fuel → -1100 ≤ s.exponent5 → s.exponent10 ≤ 1100 →
    -1100 ≤ s.exponent10 + s.exponent5 →
    ∃ t, (scaleUp cfg fuel s : Res ε _) = .ok t ∧ 0 < t.bits ∧ t.bits < 2 ^ 128 ∧
      t.exponent5 = 0 ∧ s.exponent10 + s.exponent5 ≤ t.exponent10 ∧
      t.exponent10 ≤ s.exponent10 ∧
      Below (-s.exponent5).toNat (amount s) (amount t) := by
  intro fuel
  induction fuel with
  | zero =>
    intro s hb hb' h0 h1 _ _ _
    have h : s.exponent5 = 0 := by omega
    unfold scaleUp
    rw [if_neg (by omega)]
    exact ⟨s, rfl, hb, hb', h, by omega, by omega, .refl (amount_pos hb).le _⟩
  | succ fuel ih =>
    rintro ⟨b, e5, e10⟩ hb hb' h0 h1 h2 h3 h4
    dsimp only at hb hb' h0 h1 h2 h3 h4 ⊢
    by_cases h5 : e5 < 0
    swap
    · unfold scaleUp
      rw [if_neg (by omega)]
      exact ⟨_, rfl, hb, hb', by dsimp only; omega, by dsimp only; omega, by dsimp only; omega,
        .refl (amount_pos hb).le _⟩
    have hpos : 0 < amount ⟨b, e5, e10⟩ := amount_pos hb
    have hn : (-e5).toNat = (-(e5 + 1)).toNat + 1 := by omega
    have hp : (0 : ℚ) < 10 ^ e10 * 5 ^ e5 := by positivity
    unfold scaleUp
    rw [if_pos h5]
    by_cases h6 : b < 2 ^ 127
    · have h128 : (2 : Nat) ^ 128 = 2 * 2 ^ 127 := by norm_num
      rw [if_pos ((and_top hb').2 h6), i32_ok cfg (by omega) (by omega), ok_bind,
        i32_ok cfg (by omega) (by omega), ok_bind, Nat.shiftLeft_eq, pow_one,
        Nat.mod_eq_of_lt (by omega)]
      obtain ⟨t, k1, k2, k3, k4, k5, k6, k7⟩ := ih ⟨b * 2, e5 + 1, e10 - 1⟩ (by dsimp only; omega)
        (by dsimp only; omega) (by dsimp only; omega) (by dsimp only; omega)
        (by dsimp only; omega) (by dsimp only; omega) (by dsimp only; omega)
      dsimp only at k5 k6 k7
      refine ⟨t, k1, k2, k3, k4, by omega, by omega, ?_⟩
      have e : amount ⟨b * 2, e5 + 1, e10 - 1⟩ = amount ⟨b, e5, e10⟩ := by
        unfold amount
        push_cast
        exact amount_double _ _ _
      rw [e] at k7
      exact k7.mono hpos.le (by omega)
    · rw [if_neg (by rw [and_top hb']; exact h6), i32_ok cfg (by omega) (by omega), ok_bind]
      unfold U128.div
      rw [if_neg (by norm_num), ok_bind]
      obtain ⟨t, k1, k2, k3, k4, k5, k6, k7⟩ := ih ⟨b / 5, e5 + 1, e10⟩
        (by dsimp only; norm_num at h6; omega) (by dsimp only; omega) (by dsimp only; omega)
        (by dsimp only; omega) (by dsimp only; omega) (by dsimp only; omega)
        (by dsimp only; omega)
      dsimp only at k5 k6 k7
      refine ⟨t, k1, k2, k3, k4, by omega, by omega, ?_⟩
      rw [hn]
      have e : amount ⟨b / 5, e5 + 1, e10⟩ = (b / 5 : Nat) * 5 * (10 ^ e10 * 5 ^ e5) := by
        unfold amount
        dsimp only
        rw [show ((b / 5 : Nat) : ℚ) = (b / 5 : Nat) * 5 / 5 by ring, amount_fifth]; ring
      have e' : amount ⟨b, e5, e10⟩ = b * (10 ^ e10 * 5 ^ e5) := by unfold amount; ring
      have d1 : b / 5 * 5 ≤ b := Nat.div_mul_le_self _ _
      have d2 : b ≤ b / 5 * 5 + 4 := by omega
      have d1' : ((b / 5 : Nat) : ℚ) * 5 ≤ b := by exact_mod_cast d1
      have d2' : (b : ℚ) ≤ (b / 5 : Nat) * 5 + 4 := by exact_mod_cast d2
      refine Below.step hpos.le ?_ ?_ k7
      · rw [e, e']
        exact mul_le_mul_of_nonneg_right d1' hp.le
      · rw [e, e']
        have : (b : ℚ) * (1 - stepErr) ≤ (b / 5 : Nat) * 5 := by
          have h7 : (2 : ℚ) ^ 127 ≤ b := by exact_mod_cast not_lt.1 h6
          have : (b : ℚ) * stepErr ≥ 4 := by
            unfold stepErr
            rw [← mul_div_assoc, ge_iff_le, le_div_iff₀ (by positivity)]
            linarith
          linarith
        nlinarith

/-- Exact doubling. -/
theorem scaleUp_exact (cfg : Cfg) : ∀ (n fuel b : Nat) (e10 : Int), b * 2 ^ n < 2 ^ 128 → 0 < b →
    n ≤ fuel → n ≤ 1100 → -1100 ≤ e10 - n → e10 ≤ 1100 →
    (scaleUp cfg fuel ⟨b, -n, e10⟩ : Res ε _) = .ok ⟨b * 2 ^ n, 0, e10 - n⟩ := by
  intro n
  induction n with
  | zero =>
    intro fuel b e10 _ _ _ _ _ _
    rcases fuel with _ | fuel <;> unfold scaleUp <;> simp
  | succ n ih =>
    intro fuel b e10 hb h0 hf hn h1 h2
    obtain ⟨fuel, rfl⟩ : ∃ m, fuel = m + 1 := ⟨fuel - 1, by omega⟩
    have e : b * 2 * 2 ^ n = b * 2 ^ (n + 1) := by ring
    have h5 : b * 2 < 2 ^ 128 := by
      refine lt_of_le_of_lt ?_ hb
      rw [← e]
      exact Nat.le_mul_of_pos_right _ (by positivity)
    have h128 : (2 : Nat) ^ 128 = 2 * 2 ^ 127 := by norm_num
    push_cast at h1
    unfold scaleUp
    rw [if_pos (by push_cast; omega), if_pos ((and_top (by omega)).2 (by omega)),
      i32_ok cfg (by omega) (by omega), ok_bind,
      i32_ok cfg (by push_cast; omega) (by push_cast; omega), ok_bind, Nat.shiftLeft_eq, pow_one,
      Nat.mod_eq_of_lt h5]
    rw [show -((n + 1 : Nat) : Int) + 1 = -(n : Int) by push_cast; omega,
      ih fuel (b * 2) (e10 - 1) (by rw [e]; exact hb) (by omega) (by omega) (by omega) (by omega)
        (by omega), e]
    congr 2
    push_cast; omega

/-! ## Trimming and rescaling -/

theorem rdivThreshold_spec (cfg : Cfg) {x k : Nat} (hx : x < 2 ^ 128) :
    ∃ r, (rdivThreshold cfg x (10 ^ k) (4 * ((10 ^ k - 1) / 9)) : Res ε _) = .ok r ∧
      r ≤ x ∧ (x : ℚ) / 10 ^ k - 4 / 9 ≤ r ∧ (r : ℚ) < x / 10 ^ k + 5 / 9 := by
  have hD : 0 < 10 ^ k := by positivity
  obtain ⟨c, hc⟩ : ∃ c, 10 ^ k = 9 * c + 1 := by
    refine ⟨(10 ^ k - 1) / 9, ?_⟩
    have : 10 ^ k % 9 = 1 := by rw [Nat.pow_mod]; simp
    omega
  have hc' : (10 ^ k - 1) / 9 = c := by omega
  have hdm := Nat.div_add_mod x (10 ^ k)
  have hm := Nat.mod_lt x hD
  have hq : x / 10 ^ k ≤ x := Nat.div_le_self _ _
  have hDq : (0 : ℚ) < 10 ^ k := by positivity
  have hcq : (10 : ℚ) ^ k = 9 * c + 1 := by exact_mod_cast hc
  have hdmq : (10 : ℚ) ^ k * (x / 10 ^ k : Nat) + (x % 10 ^ k : Nat) = x := by exact_mod_cast hdm
  unfold rdivThreshold U128.div U128.rem
  rw [if_neg (by omega), ok_bind, if_neg (by omega), ok_bind, hc']
  by_cases h : x % 10 ^ k > 4 * c
  · have hpos : 0 < x % 10 ^ k := by omega
    have hle : x / 10 ^ k + 1 ≤ x := by
      have : x / 10 ^ k ≤ 10 ^ k * (x / 10 ^ k) := Nat.le_mul_of_pos_left _ hD
      omega
    rw [if_pos h, u128_arith_ok cfg (by omega)]
    refine ⟨_, rfl, hle, ?_, ?_⟩
    · rw [sub_le_iff_le_add, div_le_iff₀ hDq]
      have : ((x % 10 ^ k : Nat) : ℚ) ≤ 10 ^ k := by exact_mod_cast hm.le
      push_cast at *
      nlinarith
    · have h1 : ((x % 10 ^ k : Nat) : ℚ) ≥ 4 * c + 1 := by exact_mod_cast h
      rw [← sub_lt_iff_lt_add, lt_div_iff₀ hDq]
      push_cast at *
      nlinarith
  · rw [if_neg h]
    refine ⟨_, rfl, hq, ?_, ?_⟩
    · have h1 : ((x % 10 ^ k : Nat) : ℚ) ≤ 4 * c := by exact_mod_cast not_lt.1 h
      rw [sub_le_iff_le_add, div_le_iff₀ hDq]
      nlinarith
    · have h1 : (0 : ℚ) ≤ ((x % 10 ^ k : Nat) : ℚ) := by positivity
      rw [← sub_lt_iff_lt_add, lt_div_iff₀ hDq]
      nlinarith

theorem leadingZeros_shift {b : Nat} (h : 2 ^ 52 ≤ b) (hb : b < 2 ^ 128) :
    U128.leadingZeros b + 52 = U128.leadingZeros (b / 2 ^ 52) := by
  have h0 : 0 < b / 2 ^ 52 := Nat.div_pos h (by positivity)
  have hl : Nat.log2 b = Nat.log2 (b / 2 ^ 52) + 52 := by
    rw [Nat.log2_eq_iff (by omega)]
    have h1 := Nat.log2_self_le (n := b / 2 ^ 52) (by omega)
    have h2 := Nat.lt_log2_self (n := b / 2 ^ 52)
    constructor
    · rw [pow_add]
      exact le_trans (Nat.mul_le_mul_right _ h1) (Nat.div_mul_le_self _ _)
    · rw [show Nat.log2 (b / 2 ^ 52) + 52 + 1 = (Nat.log2 (b / 2 ^ 52) + 1) + 52 by omega, pow_add]
      exact (Nat.div_lt_iff_lt_mul (by positivity)).1 h2
  have : Nat.log2 b < 128 := (Nat.log2_lt (by omega)).2 hb
  unfold U128.leadingZeros
  rw [if_neg (by omega), if_neg (by omega)]
  omega

theorem trim_skip (cfg : Cfg) {b : Nat} {e : Int} (h : ¬ (e < 0 ∧ 2 ^ 52 ≤ b)) :
    (trim cfg b e : Res ε _) = .ok (b, e) := by
  unfold trim
  dsimp only
  rw [Nat.shiftRight_eq_div_pow, if_neg]
  rintro ⟨h1, h2⟩
  refine h ⟨h1, ?_⟩
  by_contra hc
  rw [Nat.div_eq_of_lt (by omega)] at h2
  omega

theorem trim_spec (cfg : Cfg) {b : Nat} {e : Int} (he : e < 0) (he' : -3000 ≤ e)
    (hb : 2 ^ 52 ≤ b) (hb' : b < 2 ^ 128) :
    ∃ r d : Nat, (trim cfg b e : Res ε _) = .ok (r, e + d) ∧ 1 ≤ d ∧ e + d ≤ 0 ∧ r ≤ b ∧
      10 ^ d * 2 ^ 52 ≤ 10 * b ∧ (b : ℚ) / 10 ^ d - 4 / 9 ≤ r ∧ (r : ℚ) < b / 10 ^ d + 5 / 9 ∧
      (e + d = 0 ∨ b < 10 ^ d * 2 ^ 52) := by
  obtain ⟨p, hp⟩ : ∃ p, p = b / 2 ^ 52 := ⟨_, rfl⟩
  have hp0 : 0 < p := by rw [hp]; exact Nat.div_pos hb (by positivity)
  have hpb : p * 2 ^ 52 ≤ b := by rw [hp]; exact Nat.div_mul_le_self _ _
  have hp76 : p < 2 ^ 76 := by
    rw [hp]
    exact (Nat.div_lt_iff_lt_mul (by positivity)).2 (by rw [← pow_add]; exact hb')
  have hp128 : p < 2 ^ 128 :=
    lt_trans hp76 (Nat.pow_lt_pow_right (by norm_num) (by norm_num))
  obtain ⟨z1, z2, z3⟩ := leadingZeros_lt hp0 hp128
  have hlz := leadingZeros_shift hb hb'
  rw [← hp] at hlz
  obtain ⟨z, hz⟩ : ∃ z, z = U128.leadingZeros p := ⟨_, rfl⟩
  rw [← hz] at z1 z2 z3 hlz
  have hz52 : 52 ≤ z := by omega
  obtain ⟨d, d1, d2, d3, d4⟩ := nextExponent10_table ⟨127 - z, by omega⟩
  obtain ⟨d', d1', d2', d3', d4'⟩ := nextExponent10_table ⟨128 - z, by omega⟩
  dsimp only at d2 d3 d4 d2' d3' d4'
  rw [show 127 - (127 - z) = z by omega] at d2
  rw [show 127 - (128 - z) = z - 1 by omega] at d2'
  have lt23 : ∀ {n c : Nat}, n ≤ 76 → (c = 0 ∨ 10 ^ (c - 1) < 2 ^ n) → c ≤ 23 := by
    intro n c hn hc
    rcases hc with hc | hc
    · omega
    · have h1 : 10 ^ (c - 1) < 10 ^ 23 := lt_trans (lt_of_lt_of_le hc
        (Nat.pow_le_pow_right (by norm_num) hn)) (by norm_num)
      have := (Nat.pow_lt_pow_iff_right (by norm_num)).1 h1
      omega
  have hd23 := lt23 (show 127 - z ≤ 76 by omega) d4
  have hd23' := lt23 (show 128 - z ≤ 76 by omega) d4'
  have hdiv : powerOf10 d = some (10 ^ d) := by
    unfold powerOf10
    rw [powersOf10_table ⟨d, by omega⟩]; rfl
  -- the number of digits of the prefix
  obtain ⟨c, c1, c2, c3, c4, c5⟩ : ∃ c : Nat,
      ((if p ≥ 10 ^ d then idx PowerTable.nextExponent10 (z - 1) else .ok (d : Int)) : Res ε Int)
        = .ok (c : Int) ∧ c ≤ 23 ∧ 1 ≤ c ∧ 10 ^ (c - 1) ≤ p ∧ p < 10 ^ c := by
    by_cases h : p ≥ 10 ^ d
    · refine ⟨d', by rw [if_pos h, idx_some d2'], hd23', ?_, ?_, ?_⟩
      · by_contra hc
        have h0 : d' = 0 := by omega
        rw [h0] at d3'
        have : 2 ^ 1 ≤ 2 ^ (128 - z) := Nat.pow_le_pow_right (by norm_num) (by omega)
        omega
      · have hdd : d' - 1 ≤ d := by
          rcases d4' with h4 | h4
          · omega
          · have e2 : 2 ^ (128 - z) = 2 * 2 ^ (127 - z) := by
              rw [← pow_succ']; congr 1; omega
            have h5 : 10 ^ (d' - 1) < 10 ^ (d + 1) := by
              rw [pow_succ']
              omega
            have := (Nat.pow_lt_pow_iff_right (by norm_num)).1 h5
            omega
        exact le_trans (Nat.pow_le_pow_right (by norm_num) hdd) h
      · exact lt_of_lt_of_le z2 d3'
    · have hd0 : 1 ≤ d := by
        by_contra hc
        have h0 : d = 0 := by omega
        rw [h0, pow_zero] at h
        omega
      refine ⟨d, by rw [if_neg h], hd23, hd0, ?_, not_le.1 h⟩
      rcases d4 with h4 | h4
      · omega
      · omega
  obtain ⟨k, hk⟩ : ∃ k : Nat, min (c : Int) (-e) = k := ⟨(min (c : Int) (-e)).toNat, by omega⟩
  obtain ⟨r, r1, r2, r3, r4⟩ := rdivThreshold_spec (ε := ε) cfg (x := b) (k := k) hb'
  refine ⟨r, k, ?_, by omega, by omega, r2, ?_, r3, r4, ?_⟩
  · unfold trim
    dsimp only
    rw [Nat.shiftRight_eq_div_pow, ← hp, if_pos ⟨he, hp0⟩, hlz, idx_some d2, ok_bind,
      asU32_ok (by omega) (by omega), Int.toNat_natCast, hdiv, ofOption_some, unwrap_ok, ok_bind,
      c1, ok_bind, i32_ok cfg (by omega) (by omega), ok_bind, hk, asUsize_ok (by omega) (by omega),
      Int.toNat_natCast, idx_some (powersOf10_table ⟨k, by omega⟩), ok_bind]
    dsimp only
    rw [r1, ok_bind, i32_ok cfg (by omega) (by omega), ok_bind]
  · have h1 : 10 ^ k ≤ 10 * p := by
      have h2 : 10 ^ k ≤ 10 ^ c := Nat.pow_le_pow_right (by norm_num) (by omega)
      have h3 : 10 ^ c = 10 * 10 ^ (c - 1) := by rw [← pow_succ']; congr 1; omega
      omega
    calc 10 ^ k * 2 ^ 52 ≤ 10 * p * 2 ^ 52 := Nat.mul_le_mul_right _ h1
      _ = 10 * (p * 2 ^ 52) := by ring
      _ ≤ 10 * b := Nat.mul_le_mul_left _ hpb
  · rcases le_or_gt (c : Int) (-e) with h1 | h1
    · right
      have h2 : k = c := by omega
      rw [h2]
      rw [hp] at c5
      exact (Nat.div_lt_iff_lt_mul (by positivity)).1 c5
    · left; omega

/-- The digits after the point are exhausted: exact multiplication or an error. -/
theorem rescale_up (cfg : Cfg) {b : Nat} {e : Int} (hP : P ≤ 10 ^ 9) (he' : e ≤ 3000)
    (hb : b < 2 ^ 128) (he : -(P : Int) ≤ e) :
    (b * 10 ^ (e + P).toNat < 2 ^ 128 → (e + P).toNat < 39 →
      rescale cfg P b e = .ok (b * 10 ^ (e + P).toNat)) ∧
    (¬ (b * 10 ^ (e + P).toNat < 2 ^ 128 ∧ (e + P).toNat < 39) →
      rescale cfg P b e = .err ⟨"too big number"⟩) := by
  unfold rescale
  rw [i32_ok cfg (by omega) (by omega), ok_bind]
  by_cases h : e > -(P : Int)
  · rw [if_pos h, i32_ok cfg (by omega) (by omega), ok_bind, asU32_ok (by omega) (by omega)]
    unfold powerOf10
    by_cases h39 : (e + P).toNat < 39
    · rw [powersOf10_table ⟨(e + P).toNat, h39⟩]
      dsimp only [Option.map_some, Option.bind_some]
      unfold U128.checkedMul
      by_cases hlt : b * 10 ^ (e + P).toNat < 2 ^ 128
      · rw [if_pos hlt]
        exact ⟨fun _ _ => rfl, fun hn => absurd ⟨hlt, h39⟩ hn⟩
      · rw [if_neg hlt]
        exact ⟨fun h => absurd h hlt, fun _ => rfl⟩
    · rw [powersOf10_none (not_lt.1 h39)]
      exact ⟨fun _ h => absurd h h39, fun _ => rfl⟩
  · have h0 : e + P = 0 := by omega
    rw [if_neg h, if_neg (by omega), h0, Int.toNat_zero, pow_zero, mul_one]
    exact ⟨fun _ _ => rfl, fun hn => absurd ⟨hb, by norm_num⟩ hn⟩

/-- Rounding to `P` digits. -/
theorem rescale_down (cfg : Cfg) {b : Nat} {e : Int} (hP : P ≤ 10 ^ 9) (he' : -3000 ≤ e)
    (hb : b < 2 ^ 128) (he : e < -(P : Int)) :
    ∃ r : Nat, rescale cfg P b e = .ok r ∧ r ≤ b ∧
      (b : ℚ) * 10 ^ (e + P) - 4 / 9 ≤ r ∧ (r : ℚ) < b * 10 ^ (e + P) + 5 / 9 := by
  obtain ⟨k, hk⟩ : ∃ k : Nat, -(P : Int) - e = k := ⟨(-(P : Int) - e).toNat, by omega⟩
  have hz : (10 : ℚ) ^ (e + P) = (10 ^ k)⁻¹ := by
    rw [show e + (P : Int) = -(k : Int) by omega, zpow_neg, zpow_natCast]
  unfold rescale
  rw [i32_ok cfg (by omega) (by omega), ok_bind, if_neg (by omega), if_pos he,
    i32_ok cfg (by omega) (by omega), ok_bind, asU32_ok (by omega) (by omega), hk,
    Int.toNat_natCast]
  unfold rdivByExponent10
  by_cases h39 : k < 39
  · rw [powersOf10_table ⟨k, h39⟩]
    dsimp only
    obtain ⟨r, r1, r2, r3, r4⟩ := rdivThreshold_spec (ε := ConvErr) cfg (k := k) hb
    refine ⟨r, r1, r2, ?_, ?_⟩ <;> rw [hz, ← div_eq_mul_inv] <;> assumption
  · rw [powersOf10_none (not_lt.1 h39)]
    dsimp only
    have hp : (0 : ℚ) < 10 ^ k := by positivity
    have hbq : (0 : ℚ) ≤ b := by positivity
    refine ⟨0, rfl, by omega, ?_, ?_⟩ <;> rw [hz, ← div_eq_mul_inv]
    · have h1 : (b : ℚ) ≤ 10 ^ k * (4 / 9) := by
        have h2 : (b : ℚ) ≤ 2 ^ 128 := by exact_mod_cast hb.le
        have h3 : (10 : ℚ) ^ 39 ≤ 10 ^ k := pow_le_pow_right₀ (by norm_num) (not_lt.1 h39)
        have h4 : (2 : ℚ) ^ 128 ≤ 10 ^ 39 * (4 / 9) := by norm_num
        linarith
      have : (b : ℚ) / 10 ^ k ≤ 4 / 9 := by rw [div_le_iff₀ hp]; linarith
      push_cast
      linarith
    · have : 0 ≤ (b : ℚ) / 10 ^ k := by positivity
      push_cast
      linarith

end Fixnum
