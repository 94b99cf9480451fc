import Verif.Sqrt
import Verif.I256Basic

/-! # Helper lemmas: the square root routines return the integer square root -/

namespace Fixnum

open Res

variable {ε : Type}

/-! ## Newton's iteration on natural numbers -/

/-- The Newton map. -/
def newton (n x : Nat) : Nat := (n / x + x) / 2

theorem newton_ge (n x : Nat) (hx : 0 < x) : Nat.sqrt n ≤ newton n x := by
  unfold newton
  set s := Nat.sqrt n with hs
  have h1 : s * s ≤ n := Nat.sqrt_le n
  rw [Nat.le_div_iff_mul_le (by norm_num)]
  by_cases hc : s * 2 ≤ x
  · exact le_trans hc (Nat.le_add_left _ _)
  · -- n / x ≥ 2s - x because (2s - x) x ≤ s²
    obtain ⟨d, hd⟩ : ∃ d, s * 2 = x + d := ⟨s * 2 - x, by omega⟩
    have h2 : d * x ≤ n := by
      refine le_trans ?_ h1
      have : 4 * (d * x) ≤ 4 * (s * s) := by
        have h3 : 4 * (s * s) = (x + d) * (x + d) := by rw [← hd]; ring
        rw [h3]
        nlinarith [sq_nonneg ((x : Int) - d), mul_self_nonneg ((x : Int) - d), two_mul_le_add_sq x d]
      omega
    have h3 : d ≤ n / x := by rw [Nat.le_div_iff_mul_le hx]; exact h2
    omega

theorem div_le_sqrt {n x : Nat} (h : Nat.sqrt n < x) : n / x ≤ Nat.sqrt n := by
  have h1 : n < (Nat.sqrt n + 1) * (Nat.sqrt n + 1) := Nat.lt_succ_sqrt n
  rw [← Nat.lt_succ_iff, Nat.div_lt_iff_lt_mul (by omega)]
  exact lt_of_lt_of_le h1 (Nat.mul_le_mul_left _ h)

theorem newton_lt {n x : Nat} (h : Nat.sqrt n < x) : newton n x < x := by
  have := div_le_sqrt h
  unfold newton
  omega

theorem newton_half {n x : Nat} (h : Nat.sqrt n < x) :
    newton n x - Nat.sqrt n ≤ (x - Nat.sqrt n) / 2 := by
  have := div_le_sqrt h
  unfold newton
  omega

theorem div_self_le (n : Nat) (h : 0 < Nat.sqrt n) : n / Nat.sqrt n ≤ Nat.sqrt n + 2 := by
  have h1 : n < (Nat.sqrt n + 1) * (Nat.sqrt n + 1) := Nat.lt_succ_sqrt n
  rw [← Nat.lt_succ_iff, Nat.div_lt_iff_lt_mul h]
  have : (Nat.sqrt n + 2).succ * Nat.sqrt n
    = Nat.sqrt n * Nat.sqrt n + 3 * Nat.sqrt n := by rw [Nat.succ_eq_add_one]; ring
  have h3 : (Nat.sqrt n + 1) * (Nat.sqrt n + 1)
    = Nat.sqrt n * Nat.sqrt n + 2 * Nat.sqrt n + 1 := by ring
  omega

theorem newton_self (n : Nat) (h : 0 < Nat.sqrt n) : newton n (Nat.sqrt n) ≤ Nat.sqrt n + 1 := by
  have h2 := div_self_le n h
  unfold newton
  omega

theorem div_le_of_ge {n x : Nat} (h0 : 0 < Nat.sqrt n) (h : Nat.sqrt n ≤ x) :
    n / x ≤ Nat.sqrt n + 2 := by
  rcases eq_or_lt_of_le h with h1 | h1
  · rw [← h1]; exact div_self_le n h0
  · have := div_le_sqrt h1; omega

/-! ## The loops -/

theorem sqrtNext_spec (cfg : Cfg) (t : IntTy) (ht : t.min ≤ 0) (n x : Nat) (hx : 0 < x)
    (hM : ((n / x + x : Nat) : Int) ≤ t.max) :
    (sqrtNext cfg t n x : Res ε Int) = .ok (newton n x : Nat) := by
  have hne : (x : Int) ≠ 0 := by exact_mod_cast hx.ne'
  have e : (n : Int).tdiv x + x = ((n / x + x : Nat) : Int) := by
    rw [← Int.ofNat_tdiv]; push_cast; rfl
  have harith : (IntTy.arith cfg t ((n : Int).tdiv x + x) : Res ε Int)
      = .ok ((n / x + x : Nat) : Int) := by
    rw [e, IntTy.arith, if_pos ⟨le_trans ht (by positivity), hM⟩]
  simp only [sqrtNext, hne, if_false, harith, ok_bind]
  congr 1

theorem fixpointDown_spec (cfg : Cfg) (t : IntTy) (ht : t.min ≤ 0) (n : Nat)
    (h0 : 0 < Nat.sqrt n) (hS : ((2 * Nat.sqrt n + 2 : Nat) : Int) ≤ t.max) (fuel : Nat) :
    ∀ x : Nat, Nat.sqrt n ≤ x → ((2 * newton n x : Nat) : Int) ≤ t.max →
    x - Nat.sqrt n < 2 ^ fuel → newton n x ≤ x →
    (fixpointDown cfg t n (fuel + 1) x (newton n x : Nat) : Res ε Int) = .ok (Nat.sqrt n : Nat) := by
  induction fuel with
  | zero =>
    intro x hx _ hf hn
    have : x = Nat.sqrt n := by simp at hf; omega
    subst this
    have h1 := newton_ge n (Nat.sqrt n) h0
    have h2 : newton n (Nat.sqrt n) = Nat.sqrt n := le_antisymm hn h1
    rw [h2]
    unfold fixpointDown
    rw [if_neg (by omega)]
  | succ fuel ih =>
    intro x hx hM hf hn
    unfold fixpointDown
    by_cases hc : newton n x < x
    · rw [if_pos (by exact_mod_cast hc)]
      have hge := newton_ge n x (by omega)
      rw [sqrtNext_spec cfg t ht n (newton n x) (by omega) (by
        rcases eq_or_lt_of_le hge with h | h
        · refine le_trans ?_ hS
          have := div_self_le n h0
          rw [← h]
          exact_mod_cast (by omega : n / Nat.sqrt n + Nat.sqrt n ≤ 2 * Nat.sqrt n + 2)
        · refine le_trans ?_ hM
          have := div_le_sqrt h
          exact_mod_cast (by omega : n / newton n x + newton n x ≤ 2 * newton n x))]
      rw [ok_bind]
      have hxs : Nat.sqrt n < x := by omega
      have hh := newton_half hxs
      have hpow : 2 ^ (fuel + 1) = 2 * 2 ^ fuel := by ring
      by_cases hle : newton n (newton n x) ≤ newton n x
      · apply ih (newton n x) hge _ (by omega) hle
        refine le_trans ?_ hM
        exact_mod_cast (by omega : 2 * newton n (newton n x) ≤ 2 * newton n x)
      · -- the next value is the root itself: the loop stops here
        have he : newton n x = Nat.sqrt n := by
          rcases eq_or_lt_of_le hge with h | h
          · exact h.symm
          · exact absurd (newton_lt h).le hle
        cases fuel with
        | zero =>
          unfold fixpointDown
          rw [if_neg (by have : newton n x < newton n (newton n x) := by omega
                         exact not_lt.2 (by exact_mod_cast this.le)), he]
        | succ fuel =>
          unfold fixpointDown
          rw [if_neg (by have : newton n x < newton n (newton n x) := by omega
                         exact not_lt.2 (by exact_mod_cast this.le)), he]
    · have he : x = Nat.sqrt n := by
        by_contra hne
        exact hc (newton_lt (by omega))
      rw [if_neg (by exact_mod_cast hc), he]

theorem fixpoint_spec (cfg : Cfg) (t : IntTy) (ht : t.min ≤ 0) (n g : Nat)
    (h0 : 0 < Nat.sqrt n) (hg : 0 < g)
    (hS : ((2 * Nat.sqrt n + 2 : Nat) : Int) ≤ t.max) (hM : ((n / g + g : Nat) : Int) ≤ t.max)
    (hf : g + n / g < 2 ^ 127) :
    (fixpoint cfg t n g : Res ε Int) = .ok (Nat.sqrt n : Nat) := by
  have hnw : newton n g = (n / g + g) / 2 := rfl
  have hnext : (sqrtNext cfg t n g : Res ε Int) = .ok (newton n g : Nat) :=
    sqrtNext_spec cfg t ht n g hg hM
  have hn0 := newton_ge n g hg
  have hM2 : ((2 * newton n g : Nat) : Int) ≤ t.max := by
    refine le_trans ?_ hM
    exact_mod_cast (by omega : 2 * newton n g ≤ n / g + g)
  generalize hq : n / g = q at *
  have down : ∀ x : Nat, Nat.sqrt n ≤ x → x ≤ g + q + 1 → newton n x ≤ x →
      ((2 * newton n x : Nat) : Int) ≤ t.max →
      (fixpointDown cfg t n 128 x (newton n x : Nat) : Res ε Int) = .ok (Nat.sqrt n : Nat) := by
    intro x hx hx2 hn hb
    exact fixpointDown_spec cfg t ht n h0 hS 127 x hx hb (by omega) hn
  have next : ∀ x : Nat, Nat.sqrt n ≤ x →
      (x ≤ Nat.sqrt n + 1 ∨ ((2 * x : Nat) : Int) ≤ t.max) →
      (sqrtNext cfg t n x : Res ε Int) = .ok (newton n x : Nat) := by
    intro x hx hb
    refine sqrtNext_spec cfg t ht n x (by omega) ?_
    rcases eq_or_lt_of_le hx with h | h
    · refine le_trans ?_ hS
      have := div_self_le n h0
      rw [← h]
      exact_mod_cast (by omega : n / Nat.sqrt n + Nat.sqrt n ≤ 2 * Nat.sqrt n + 2)
    · have := div_le_sqrt h
      rcases hb with hb | hb
      · refine le_trans ?_ hS
        exact_mod_cast (by omega : n / x + x ≤ 2 * Nat.sqrt n + 2)
      · refine le_trans ?_ hb
        exact_mod_cast (by omega : n / x + x ≤ 2 * x)
  -- the ascending loop stops at once above the root
  have up : ∀ (fuel x : Nat), Nat.sqrt n < x →
      (fixpointUp cfg t n (fuel + 1) x (newton n x : Nat) : Res ε _) = .ok (x, (newton n x : Nat)) := by
    intro fuel x hx
    unfold fixpointUp
    rw [if_neg (not_lt.2 (by exact_mod_cast (newton_lt hx).le))]
  have hn1 : newton n g ≤ g + q := by omega
  unfold fixpoint
  rw [hnext, ok_bind]
  by_cases hc : g < newton n g
  · -- one ascending step
    rw [show (128 : Nat) = 125 + 1 + 1 + 1 from rfl]
    have step : (fixpointUp cfg t n (125 + 1 + 1 + 1) g (newton n g : Nat) : Res ε _)
        = fixpointUp cfg t n (125 + 1 + 1) (newton n g : Nat) (newton n (newton n g) : Nat) := by
      conv_lhs => unfold fixpointUp
      rw [if_pos (by exact_mod_cast hc), next _ hn0 (.inr hM2), ok_bind]
    rw [step]
    rcases eq_or_lt_of_le hn0 with h | h
    · -- landed on the root
      rw [← h]
      have hs := newton_self n h0
      have hs2 := newton_ge n (Nat.sqrt n) h0
      rcases (by omega : newton n (Nat.sqrt n) = Nat.sqrt n ∨ newton n (Nat.sqrt n) = Nat.sqrt n + 1)
        with h1 | h1
      · have : (fixpointUp cfg t n (125 + 1 + 1) (Nat.sqrt n : Nat) (newton n (Nat.sqrt n) : Nat)
            : Res ε _) = .ok ((Nat.sqrt n : Nat), (newton n (Nat.sqrt n) : Nat)) := by
          unfold fixpointUp
          rw [if_neg (by rw [h1]; omega)]
        rw [this, ok_bind]
        refine down _ (le_refl _) (by omega) (by omega) (le_trans ?_ hS)
        exact_mod_cast (by omega : 2 * newton n (Nat.sqrt n) ≤ 2 * Nat.sqrt n + 2)
      · have : (fixpointUp cfg t n (125 + 1 + 1) (Nat.sqrt n : Nat) (newton n (Nat.sqrt n) : Nat)
            : Res ε _) = .ok ((Nat.sqrt n + 1 : Nat), (newton n (Nat.sqrt n + 1) : Nat)) := by
          conv_lhs => unfold fixpointUp
          rw [h1, if_pos (by push_cast; omega), next _ (by omega) (.inl (by omega)), ok_bind]
          exact up _ _ (by omega)
        rw [this, ok_bind]
        have h2 : newton n (Nat.sqrt n + 1) < Nat.sqrt n + 1 := newton_lt (by omega)
        refine down _ (by omega) (by omega) h2.le (le_trans ?_ hS)
        exact_mod_cast (by omega : 2 * newton n (Nat.sqrt n + 1) ≤ 2 * Nat.sqrt n + 2)
    · have h2 := newton_lt h
      rw [up _ _ h, ok_bind]
      refine down _ h.le (by omega) h2.le (le_trans ?_ hM2)
      exact_mod_cast (by omega : 2 * newton n (newton n g) ≤ 2 * newton n g)
  · have : (fixpointUp cfg t n 128 g (newton n g : Nat) : Res ε _)
        = .ok ((g : Nat), (newton n g : Nat)) := by
      unfold fixpointUp
      rw [if_neg (by exact_mod_cast hc)]
    rw [this, ok_bind]
    exact down g (by omega) (by omega) (by omega) hM2

/-! ## The initial guesses -/

theorem natToF64_bounds (x : Nat) (hx : 0 < x) : x ≤ 2 * natToF64 x ∧ natToF64 x ≤ 2 * x := by
  unfold natToF64
  have hlog : 2 ^ Nat.log2 x ≤ x := Nat.log2_self_le hx.ne'
  dsimp only
  split
  · omega
  · rename_i hc
    set e := Nat.log2 x with he
    set u := 2 ^ (e - 52) with hu
    have hupos : 0 < u := Nat.pow_pos (by norm_num)
    have hux : u ≤ x := le_trans (Nat.pow_le_pow_right (by norm_num) (by omega)) hlog
    have hq : 1 ≤ x / u := by rw [Nat.le_div_iff_mul_le hupos]; omega
    have hdm : x / u * u + x % u = x := Nat.div_add_mod' x u
    have hr : x % u < u := Nat.mod_lt _ hupos
    have hqu : u ≤ x / u * u := by
      calc u = 1 * u := (Nat.one_mul u).symm
        _ ≤ _ := Nat.mul_le_mul_right _ hq
    split
    · omega
    · rw [Nat.add_mul, Nat.one_mul]; omega

theorem f64SqrtTrunc_bounds (x : Nat) :
    Nat.sqrt x ≤ f64SqrtTrunc x ∧ f64SqrtTrunc x ≤ Nat.sqrt x + 1 := by
  unfold f64SqrtTrunc
  set k := 52 - Nat.log2 x / 2 with hk
  set s := Nat.sqrt x with hs
  have h1 : s * s ≤ x := Nat.sqrt_le x
  have h2 : x < (s + 1) * (s + 1) := Nat.lt_succ_sqrt x
  have hp : 0 < 2 ^ k := Nat.pow_pos (by norm_num)
  have h4 : (4:Nat) ^ (k + 1) = 2 ^ (k + 1) * 2 ^ (k + 1) := by
    rw [← Nat.mul_pow]
  have hk1 : (2:Nat) ^ (k + 1) = 2 * 2 ^ k := by ring
  have hlo : s * 2 ^ (k + 1) ≤ Nat.sqrt (x * 4 ^ (k + 1)) := by
    rw [Nat.le_sqrt, h4]
    calc s * 2 ^ (k + 1) * (s * 2 ^ (k + 1)) = s * s * (2 ^ (k + 1) * 2 ^ (k + 1)) := by ring
      _ ≤ _ := Nat.mul_le_mul_right _ h1
  have hhi : Nat.sqrt (x * 4 ^ (k + 1)) < (s + 1) * 2 ^ (k + 1) := by
    rw [Nat.sqrt_lt, h4]
    calc x * (2 ^ (k + 1) * 2 ^ (k + 1)) < (s + 1) * (s + 1) * (2 ^ (k + 1) * 2 ^ (k + 1)) :=
          Nat.mul_lt_mul_of_pos_right h2 (by positivity)
      _ = _ := by ring
  rw [hk1] at hlo hhi
  dsimp only
  generalize Nat.sqrt (x * 4 ^ (k + 1)) = t at *
  constructor
  · rw [Nat.le_div_iff_mul_le hp, Nat.le_div_iff_mul_le (by norm_num)]
    calc s * 2 ^ k * 2 = s * (2 * 2 ^ k) := by ring
      _ ≤ t := hlo
      _ ≤ t + 1 := Nat.le_succ _
  · rw [← Nat.lt_succ_iff, Nat.div_lt_iff_lt_mul hp, Nat.div_lt_iff_lt_mul (by norm_num)]
    have h5 : (s + 1) * (2 * 2 ^ k) = (s + 1) * 2 ^ k * 2 := by ring
    have h6 : (s + 1).succ * 2 ^ k * 2 = (s + 1) * 2 ^ k * 2 + 2 ^ k * 2 := by
      rw [Nat.succ_eq_add_one]; ring
    omega

/-- Any guess bracketed by roots of numbers within a factor two of `n` keeps the sum small. -/
theorem guess_sum {n X g : Nat} (hn : 4 ≤ n) (h1 : n ≤ 2 * X) (hg : Nat.sqrt X ≤ g)
    (hg2 : g ≤ Nat.sqrt X + 1) : 0 < g ∧ n / g ≤ 8 * g := by
  have hX : 2 ≤ X := by omega
  have hs : 1 ≤ Nat.sqrt X := by rw [Nat.le_sqrt]; omega
  refine ⟨by omega, ?_⟩
  have h2 : X < (Nat.sqrt X + 1) * (Nat.sqrt X + 1) := Nat.lt_succ_sqrt X
  have h3 : (Nat.sqrt X + 1) * (Nat.sqrt X + 1) ≤ (2 * g) * (2 * g) :=
    Nat.mul_le_mul (by omega) (by omega)
  rw [← Nat.lt_succ_iff, Nat.div_lt_iff_lt_mul (by omega)]
  have h4 : (8 * g).succ * g = 2 * ((2 * g) * (2 * g)) + g := by rw [Nat.succ_eq_add_one]; ring
  omega

/-- The Newton iteration on the types of 16, 32 and 64 bits. -/
theorem sqrtSmall_spec (cfg : Cfg) (t : IntTy)
    (ht : t.bits = 16 ∨ t.bits = 32 ∨ t.bits = 64) (n : Nat) (hn : (n : Int) ≤ t.max) :
    (sqrtSmall cfg t n : Res ε Int) = .ok (Nat.sqrt n : Nat) := by
  replace ht : t = ⟨true, 16⟩ ∨ t = ⟨true, 32⟩ ∨ t = ⟨true, 64⟩ ∨ t = ⟨false, 16⟩ ∨
      t = ⟨false, 32⟩ ∨ t = ⟨false, 64⟩ := by
    obtain ⟨s, b⟩ := t
    simp only at ht
    cases s <;> rcases ht with rfl | rfl | rfl <;> simp
  unfold sqrtSmall
  have hda : (debugAssert cfg (decide (0 ≤ (n : Int))) : Res ε Unit) = .ok () := by
    simp [debugAssert]
  rw [hda, ok_bind]
  by_cases h4 : n < 4
  · rw [if_pos (by exact_mod_cast h4)]
    have : n = 0 ∨ n = 1 ∨ n = 2 ∨ n = 3 := by omega
    have e : (if 0 < (n : Int) then (1 : Int) else 0) = (Nat.sqrt n : Nat) := by
      have h3 : Nat.sqrt 3 = 1 := (Nat.eq_sqrt.2 ⟨by norm_num, by norm_num⟩).symm
      rcases this with rfl | rfl | rfl | rfl <;> norm_num [h3]
    rw [e]
  · rw [if_neg (by exact_mod_cast h4)]
    have h4 : 4 ≤ n := by omega
    have hs2 : 2 ≤ Nat.sqrt n := by rw [Nat.le_sqrt]; omega
    have htmin : t.min ≤ 0 := by
      rcases ht with rfl | rfl | rfl | rfl | rfl | rfl <;> norm_num [IntTy.min]
    -- it suffices to bound the guess
    suffices hg : ∃ g : Nat, (sqrtGuess cfg t n : Res ε Int) = .ok (g : Nat) ∧ 0 < g ∧
        n / g ≤ 8 * g ∧ g ≤ 2 * Nat.sqrt n + 2 by
      obtain ⟨g, e, g0, g1, g2⟩ := hg
      rw [e, ok_bind]
      have hsum : n / g + g ≤ 19 * Nat.sqrt n + 22 := by omega
      have hroot : 2 * Nat.sqrt n + 2 ≤ 19 * Nat.sqrt n + 22 := by omega
      have hsmall : ((19 * Nat.sqrt n + 22 : Nat) : Int) ≤ t.max ∧ Nat.sqrt n < 2 ^ 32 := by
        rcases ht with rfl | rfl | rfl | rfl | rfl | rfl <;> norm_num [IntTy.max] at hn ⊢
        · have : Nat.sqrt n < 182 := by rw [Nat.sqrt_lt]; omega
          constructor <;> omega
        · have : Nat.sqrt n < 46341 := by rw [Nat.sqrt_lt]; omega
          constructor <;> omega
        · have : Nat.sqrt n < 2 ^ 32 := by rw [Nat.sqrt_lt]; omega
          constructor <;> omega
        · have : Nat.sqrt n < 256 := by rw [Nat.sqrt_lt]; omega
          constructor <;> omega
        · have : Nat.sqrt n < 65536 := by rw [Nat.sqrt_lt]; omega
          constructor <;> omega
        · have : Nat.sqrt n < 2 ^ 32 := by rw [Nat.sqrt_lt]; omega
          constructor <;> omega
      exact fixpoint_spec cfg t htmin n g (by omega) g0
        (le_trans (by exact_mod_cast hroot) hsmall.1) (le_trans (by exact_mod_cast hsum) hsmall.1)
        (by have := hsmall.2; omega)
    unfold sqrtGuess
    by_cases hstd : cfg.std = true
    · rw [if_pos hstd]
      obtain ⟨b1, b2⟩ := natToF64_bounds n (by omega)
      obtain ⟨c1, c2⟩ := f64SqrtTrunc_bounds (natToF64 n)
      obtain ⟨d1, d2⟩ := guess_sum h4 b1 c1 c2
      refine ⟨_, rfl, ?_, ?_, ?_⟩
      · rw [Int.toNat_natCast]; exact d1
      · rw [Int.toNat_natCast]; exact d2
      · rw [Int.toNat_natCast]
        have : Nat.sqrt (natToF64 n) ≤ 2 * Nat.sqrt n + 1 := by
          rw [← Nat.lt_succ_iff, Nat.sqrt_lt]
          have := Nat.lt_succ_sqrt n
          have h5 : (2 * Nat.sqrt n + 1).succ * (2 * Nat.sqrt n + 1).succ
              = 4 * ((Nat.sqrt n).succ * (Nat.sqrt n).succ) := by
            simp only [Nat.succ_eq_add_one]; ring
          rw [h5]
          omega
        omega
    · rw [if_neg hstd]
      have hda : (debugAssert cfg (decide (0 < (n : Int))) : Res ε Unit) = .ok () := by
        have : (0 : Int) < n := by omega
        unfold debugAssert
        rw [decide_eq_true this]; simp
      rw [hda, ok_bind, Int.toNat_natCast]
      set L := Nat.log2 n with hL
      have hlo : 2 ^ L ≤ n := Nat.log2_self_le (by omega)
      have hhi : n < 2 ^ (L + 1) := Nat.lt_log2_self
      have hgpos : 0 < 2 ^ ((L + 1) / 2) := Nat.pow_pos (by norm_num)
      -- n < 2 g²
      have hg1 : n < 2 * (2 ^ ((L + 1) / 2) * 2 ^ ((L + 1) / 2)) := by
        refine lt_of_lt_of_le hhi ?_
        rw [← pow_add, ← pow_succ']
        exact Nat.pow_le_pow_right (by norm_num) (by omega)
      -- g² ≤ 2 n
      have hg2 : 2 ^ ((L + 1) / 2) * 2 ^ ((L + 1) / 2) ≤ 2 * n := by
        calc 2 ^ ((L + 1) / 2) * 2 ^ ((L + 1) / 2) ≤ 2 ^ (L + 1) := by
              rw [← pow_add]; exact Nat.pow_le_pow_right (by norm_num) (by omega)
          _ = 2 * 2 ^ L := by ring
          _ ≤ _ := by omega
      have hL64 : L ≤ 63 := by
        have : n < 2 ^ 64 := by
          rcases ht with rfl | rfl | rfl | rfl | rfl | rfl <;> (norm_num [IntTy.max] at hn; omega)
        have := (Nat.log2_lt (show n ≠ 0 by omega)).2 this
        omega
      have hwrap : t.wrap (2 ^ ((L + 1) / 2)) = ((2 ^ ((L + 1) / 2) : Nat) : Int) := by
        have hb : 2 ^ ((L + 1) / 2) * 2 ^ ((L + 1) / 2) ≤ 2 * n := hg2
        generalize hG : 2 ^ ((L + 1) / 2) = G at *
        have hGi : (2 : Int) ^ ((L + 1) / 2) = (G : Int) := by rw [← hG]; norm_num
        rw [hGi]
        rcases ht with rfl | rfl | rfl | rfl | rfl | rfl <;> norm_num [IntTy.max] at hn
        · have : G < 2 ^ 9 := by
            by_contra hc
            have : 2 ^ 9 * 2 ^ 9 ≤ G * G := Nat.mul_le_mul (by omega) (by omega)
            omega
          simp only [IntTy.wrap, if_true]
          apply Int.bmod_eq_of_le <;> (norm_num <;> omega)
        · have : G < 2 ^ 17 := by
            by_contra hc
            have : 2 ^ 17 * 2 ^ 17 ≤ G * G := Nat.mul_le_mul (by omega) (by omega)
            omega
          simp only [IntTy.wrap, if_true]
          apply Int.bmod_eq_of_le <;> (norm_num <;> omega)
        · have : G < 2 ^ 33 := by
            by_contra hc
            have : 2 ^ 33 * 2 ^ 33 ≤ G * G := Nat.mul_le_mul (by omega) (by omega)
            omega
          simp only [IntTy.wrap, if_true]
          apply Int.bmod_eq_of_le <;> (norm_num <;> omega)
        · have : G < 2 ^ 9 := by
            by_contra hc
            have : 2 ^ 9 * 2 ^ 9 ≤ G * G := Nat.mul_le_mul (by omega) (by omega)
            omega
          simp only [IntTy.wrap, Bool.false_eq_true, if_false]
          exact Int.emod_eq_of_lt (by omega) (by omega)
        · have : G < 2 ^ 17 := by
            by_contra hc
            have : 2 ^ 17 * 2 ^ 17 ≤ G * G := Nat.mul_le_mul (by omega) (by omega)
            omega
          simp only [IntTy.wrap, Bool.false_eq_true, if_false]
          exact Int.emod_eq_of_lt (by omega) (by omega)
        · have : G < 2 ^ 33 := by
            by_contra hc
            have : 2 ^ 33 * 2 ^ 33 ≤ G * G := Nat.mul_le_mul (by omega) (by omega)
            omega
          simp only [IntTy.wrap, Bool.false_eq_true, if_false]
          exact Int.emod_eq_of_lt (by omega) (by omega)
      dsimp only
      rw [hwrap]
      generalize 2 ^ ((L + 1) / 2) = G at *
      refine ⟨G, rfl, hgpos, ?_, ?_⟩
      · rw [← Nat.lt_succ_iff, Nat.div_lt_iff_lt_mul hgpos]
        have : (8 * G).succ * G = 8 * (G * G) + G := by rw [Nat.succ_eq_add_one]; ring
        omega
      · by_contra hc
        have h5 : (2 * Nat.sqrt n + 2) * (2 * Nat.sqrt n + 2) ≤ G * G :=
          Nat.mul_le_mul (by omega) (by omega)
        have h6 : (2 * Nat.sqrt n + 2) * (2 * Nat.sqrt n + 2)
            = 4 * ((Nat.sqrt n).succ * (Nat.sqrt n).succ) := by
          simp only [Nat.succ_eq_add_one]; ring
        have := Nat.lt_succ_sqrt n
        omega

/-- The Newton iteration on the types of 8 bits. -/
theorem sqrtSmall_spec8 (cfg : Cfg) (t : IntTy) (ht : t.bits = 8) (n : Nat)
    (hn : (n : Int) ≤ t.max) : (sqrtSmall cfg t n : Res ε Int) = .ok (Nat.sqrt n : Nat) := by
  have hmax : t.max = 127 ∨ t.max = 255 := by
    obtain ⟨s, b⟩ := t
    simp only at ht
    subst ht
    cases s <;> simp [IntTy.max]
  have hmin : t.min ≤ 0 := by
    unfold IntTy.min
    split
    · rw [ht]; norm_num
    · rfl
  have hn8 : n < 256 := by omega
  unfold sqrtSmall
  have hda : (debugAssert cfg (decide (0 ≤ (n : Int))) : Res ε Unit) = .ok () := by
    simp [debugAssert]
  rw [hda, ok_bind]
  by_cases h4 : n < 4
  · rw [if_pos (by exact_mod_cast h4)]
    have : n = 0 ∨ n = 1 ∨ n = 2 ∨ n = 3 := by omega
    have e : (if 0 < (n : Int) then (1 : Int) else 0) = (Nat.sqrt n : Nat) := by
      have h3 : Nat.sqrt 3 = 1 := (Nat.eq_sqrt.2 ⟨by norm_num, by norm_num⟩).symm
      rcases this with rfl | rfl | rfl | rfl <;> norm_num [h3]
    rw [e]
  · rw [if_neg (by exact_mod_cast h4)]
    have h4 : 4 ≤ n := by omega
    have hs2 : 2 ≤ Nat.sqrt n := by rw [Nat.le_sqrt]; omega
    have hs3 : Nat.sqrt n < 16 := by rw [Nat.sqrt_lt]; omega
    suffices hg : ∃ g : Nat, (sqrtGuess cfg t n : Res ε Int) = .ok (g : Nat) ∧ 0 < g ∧
        n / g + g ≤ 127 by
      obtain ⟨g, e, g0, g1⟩ := hg
      rw [e, ok_bind]
      refine fixpoint_spec cfg t hmin n g (by omega) g0 (le_trans ?_ (?_ : (127 : Int) ≤ t.max))
        (le_trans ?_ (?_ : (127 : Int) ≤ t.max)) (by omega)
      · exact_mod_cast (by omega : 2 * Nat.sqrt n + 2 ≤ 127)
      · omega
      · exact_mod_cast g1
      · omega
    unfold sqrtGuess
    by_cases hstd : cfg.std = true
    · rw [if_pos hstd]
      have key : ∀ m : Fin 256, 4 ≤ m.val → 0 < f64SqrtTrunc (natToF64 m.val) ∧
          m.val / f64SqrtTrunc (natToF64 m.val) + f64SqrtTrunc (natToF64 m.val) ≤ 127 := by
        decide +kernel
      exact ⟨_, rfl, by simpa using key ⟨n, hn8⟩ h4⟩
    · rw [if_neg hstd]
      have hda : (debugAssert cfg (decide (0 < (n : Int))) : Res ε Unit) = .ok () := by
        have : (0 : Int) < n := by omega
        unfold debugAssert
        rw [decide_eq_true this]; simp
      have key : ∀ m : Fin 256, 4 ≤ m.val → 0 < 2 ^ ((Nat.log2 m.val + 1) / 2) ∧
          2 ^ ((Nat.log2 m.val + 1) / 2) ≤ 16 ∧
          m.val / 2 ^ ((Nat.log2 m.val + 1) / 2) + 2 ^ ((Nat.log2 m.val + 1) / 2) ≤ 127 := by
        decide +kernel
      obtain ⟨k0, k1, k2⟩ := key ⟨n, hn8⟩ h4
      simp only at k0 k1 k2
      rw [hda, ok_bind, Int.toNat_natCast]
      refine ⟨2 ^ ((Nat.log2 n + 1) / 2), ?_, k0, k2⟩
      dsimp only
      generalize hG : 2 ^ ((Nat.log2 n + 1) / 2) = G at *
      have hGi : (2 : Int) ^ ((Nat.log2 n + 1) / 2) = (G : Int) := by rw [← hG]; norm_num
      rw [hGi]
      congr 1
      unfold IntTy.wrap
      rw [ht]
      split
      · apply Int.bmod_eq_of_le <;> (norm_num <;> omega)
      · exact Int.emod_eq_of_lt (by omega) (by omega)

/-- One digit at a time: `isqrt n` is `2·isqrt(n/4)` or one more. -/
theorem sqrt_digit (n : Nat) :
    (if (2 * Nat.sqrt (n / 4) + 1) * (2 * Nat.sqrt (n / 4) + 1) ≤ n
      then 2 * Nat.sqrt (n / 4) + 1 else 2 * Nat.sqrt (n / 4)) = Nat.sqrt n := by
  set s := Nat.sqrt (n / 4) with hs
  have h1 : s * s ≤ n / 4 := Nat.sqrt_le _
  have h2 : n / 4 < (s + 1) * (s + 1) := Nat.lt_succ_sqrt _
  have e1 : (2 * s + 1) * (2 * s + 1) = 4 * (s * s) + 4 * s + 1 := by ring
  have e2 : (s + 1) * (s + 1) = s * s + 2 * s + 1 := by ring
  split
  · rename_i hc
    rw [Nat.eq_sqrt]
    refine ⟨hc, ?_⟩
    have e3 : (2 * s + 1 + 1) * (2 * s + 1 + 1) = 4 * (s * s) + 8 * s + 4 := by ring
    omega
  · rename_i hc
    rw [Nat.eq_sqrt]
    refine ⟨?_, by omega⟩
    have e3 : 2 * s * (2 * s) = 4 * (s * s) := by ring
    omega

/-- The 128-bit recursion, for a type in which the square of the larger candidate fits. -/
theorem sqrtWide_spec (cfg : Cfg) (t : IntTy) (ht0 : t.min ≤ 0)
    (htw : ∀ z : Int, 0 ≤ z → z ≤ t.max → t.wrap z = z) (fuel : Nat) :
    ∀ n : Nat, n < 2 ^ 64 * 4 ^ fuel →
      (((2 * Nat.sqrt (n / 4) + 1) * (2 * Nat.sqrt (n / 4) + 1) : Nat) : Int) ≤ t.max →
      (sqrtWide cfg t (fuel + 1) n : Res ε Int) = .ok (Nat.sqrt n : Nat) := by
  have small : ∀ (fuel n : Nat), n < 2 ^ 64 →
      (sqrtWide cfg t (fuel + 1) n : Res ε Int) = .ok (Nat.sqrt n : Nat) := by
    intro fuel n hn
    have hda : (debugAssert cfg (decide (0 ≤ (n : Int))) : Res ε Unit) = .ok () := by
      simp [debugAssert]
    unfold sqrtWide
    rw [hda, ok_bind, if_pos ⟨Int.natCast_nonneg n, by exact_mod_cast hn⟩]
    refine sqrtSmall_spec cfg _ (.inr (.inr rfl)) n ?_
    have : (n : Int) < 2 ^ 64 := by exact_mod_cast hn
    simp only [IntTy.max, Bool.false_eq_true, if_false]
    omega
  induction fuel with
  | zero =>
    intro n hn _
    exact small 0 n (by simpa using hn)
  | succ fuel ih =>
    intro n hn hsq
    by_cases hs : n < 2 ^ 64
    · exact small _ n hs
    · have hda : (debugAssert cfg (decide (0 ≤ (n : Int))) : Res ε Unit) = .ok () := by
        simp [debugAssert]
      have hmono : Nat.sqrt (n / 4 / 4) ≤ Nat.sqrt (n / 4) :=
        Nat.sqrt_le_sqrt (Nat.div_le_self _ _)
      have hrec := ih (n / 4) (by
          rw [Nat.div_lt_iff_lt_mul (by norm_num)]
          calc n < 2 ^ 64 * 4 ^ (fuel + 1) := hn
            _ = _ := by ring) (by
          refine le_trans ?_ hsq
          exact_mod_cast Nat.mul_le_mul (by omega) (by omega))
      have hdig := sqrt_digit n
      unfold sqrtWide
      rw [hda, ok_bind, if_neg (by
        intro hc
        exact hs (by exact_mod_cast hc.2))]
      rw [show (n : Int) / 4 = ((n / 4 : Nat) : Int) by push_cast; rfl, hrec, ok_bind]
      generalize Nat.sqrt (n / 4) = r at *
      have hb : ((2 * r + 1 : Nat) : Int) ≤ t.max := by
        refine le_trans ?_ hsq
        exact_mod_cast Nat.le_mul_of_pos_left (2 * r + 1) (by omega)
      have hlo : t.wrap ((r : Int) * 2) = ((2 * r : Nat) : Int) := by
        rw [htw _ (by positivity) (by push_cast at hb; omega)]; push_cast; ring
      have hhi : (IntTy.arith cfg t (t.wrap ((r : Int) * 2) + 1) : Res ε Int)
          = .ok ((2 * r + 1 : Nat) : Int) := by
        rw [hlo, IntTy.arith]
        have : (((2 * r : Nat) : Int) + 1) = ((2 * r + 1 : Nat) : Int) := by push_cast; ring
        rw [this, if_pos ⟨le_trans ht0 (Int.natCast_nonneg _), hb⟩]
      have hmul : (IntTy.arith cfg t (((2 * r + 1 : Nat) : Int) * ((2 * r + 1 : Nat) : Int)) : Res ε Int)
          = .ok (((2 * r + 1) * (2 * r + 1) : Nat) : Int) := by
        rw [← Nat.cast_mul, IntTy.arith, if_pos ⟨le_trans ht0 (Int.natCast_nonneg _), hsq⟩]
      dsimp only
      rw [hhi, ok_bind, hmul, ok_bind, hlo, ← hdig]
      by_cases hc : (2 * r + 1) * (2 * r + 1) ≤ n
      · rw [if_pos (by exact_mod_cast hc), if_pos hc]
      · rw [if_neg (by exact_mod_cast hc), if_neg hc]

/-- `u128::sqrt` is the integer square root for every argument. -/
theorem sqrtPrim_u128 (cfg : Cfg) (n : Nat) (hn : n < 2 ^ 128) :
    (sqrtPrim cfg ⟨false, 128⟩ n : Res ε Int) = .ok (Nat.sqrt n : Nat) := by
  unfold sqrtPrim
  rw [if_pos (by norm_num), show (128 : Nat) = 127 + 1 from rfl]
  refine sqrtWide_spec cfg _ (by simp [IntTy.min]) ?_ 127 n
    (lt_trans hn (by norm_num)) ?_
  · intro z h0 h1
    simp only [IntTy.max, IntTy.wrap, Bool.false_eq_true, if_false] at h1 ⊢
    exact Int.emod_eq_of_lt h0 (by omega)
  · have h1 : Nat.sqrt (n / 4) < 2 ^ 63 := by
      rw [Nat.sqrt_lt, Nat.div_lt_iff_lt_mul (by norm_num)]
      exact lt_of_lt_of_eq hn (by norm_num)
    have h2 : (2 * Nat.sqrt (n / 4) + 1) * (2 * Nat.sqrt (n / 4) + 1) ≤ (2 ^ 64 - 1) * (2 ^ 64 - 1) :=
      Nat.mul_le_mul (by omega) (by omega)
    simp only [IntTy.max, Bool.false_eq_true, if_false]
    refine le_trans (Int.ofNat_le.2 h2) (by norm_num)

/-- `i128::sqrt` is the integer square root for every argument below `2^126`. -/
theorem sqrtPrim_i128 (cfg : Cfg) (n : Nat) (hn : n < 2 ^ 126) :
    (sqrtPrim cfg ⟨true, 128⟩ n : Res ε Int) = .ok (Nat.sqrt n : Nat) := by
  unfold sqrtPrim
  rw [if_pos (by norm_num), show (128 : Nat) = 127 + 1 from rfl]
  refine sqrtWide_spec cfg _ (by norm_num [IntTy.min]) ?_ 127 n
    (lt_trans hn (by norm_num)) ?_
  · intro z h0 h1
    simp only [IntTy.max, IntTy.wrap, if_true] at h1 ⊢
    apply Int.bmod_eq_of_le <;> norm_num <;> norm_num at h1 <;> omega
  · have h1 : Nat.sqrt (n / 4) < 2 ^ 62 := by
      rw [Nat.sqrt_lt, Nat.div_lt_iff_lt_mul (by norm_num)]
      exact lt_of_lt_of_eq hn (by norm_num)
    have h2 : (2 * Nat.sqrt (n / 4) + 1) * (2 * Nat.sqrt (n / 4) + 1) ≤ (2 ^ 63 - 1) * (2 ^ 63 - 1) :=
      Nat.mul_le_mul (by omega) (by omega)
    simp only [IntTy.max, if_true]
    refine le_trans (Int.ofNat_le.2 h2) (by norm_num)

/-- `i128::sqrt` is the integer square root as long as the square of the larger candidate fits. -/
theorem sqrtPrim_i128_exact (cfg : Cfg) (n : Nat) (hn : n < 13043817825332782212 ^ 2) :
    (sqrtPrim cfg ⟨true, 128⟩ n : Res ε Int) = .ok (Nat.sqrt n : Nat) := by
  unfold sqrtPrim
  rw [if_pos (by norm_num), show (128 : Nat) = 127 + 1 from rfl]
  refine sqrtWide_spec cfg _ (by norm_num [IntTy.min]) ?_ 127 n
    (lt_trans hn (by norm_num)) ?_
  · intro z h0 h1
    simp only [IntTy.max, IntTy.wrap, if_true] at h1 ⊢
    apply Int.bmod_eq_of_le <;> norm_num <;> norm_num at h1 <;> omega
  · have h1 : Nat.sqrt (n / 4) < 6521908912666391106 := by
      rw [Nat.sqrt_lt, Nat.div_lt_iff_lt_mul (by norm_num)]
      exact lt_of_lt_of_eq hn (by norm_num)
    have h2 : (2 * Nat.sqrt (n / 4) + 1) * (2 * Nat.sqrt (n / 4) + 1) ≤
        13043817825332782211 * 13043817825332782211 :=
      Nat.mul_le_mul (by omega) (by omega)
    simp only [IntTy.max, if_true]
    refine le_trans (Int.ofNat_le.2 h2) (by norm_num)

/-- Above that, `hi * hi` overflows. -/
theorem sqrtPrim_i128_overflow (cfg : Cfg) (n : Nat) (hn : 13043817825332782212 ^ 2 ≤ n)
    (hn2 : n < 2 ^ 127) : (sqrtPrim cfg ⟨true, 128⟩ n : Res ε Int) =
      if cfg.overflowChecks then .panic else .ok 13043817825332782213 := by
  have hda : (debugAssert cfg (decide (0 ≤ (n : Int))) : Res ε Unit) = .ok () := by
    simp [debugAssert]
  have hr : Nat.sqrt (n / 4) = 6521908912666391106 := by
    symm
    rw [Nat.eq_sqrt]
    norm_num at hn hn2 ⊢
    omega
  have hrec : (sqrtWide cfg ⟨true, 128⟩ 127 ((n / 4 : Nat) : Int) : Res ε Int) =
      .ok (6521908912666391106 : Nat) := by
    rw [← hr, show (127 : Nat) = 126 + 1 from rfl]
    refine sqrtWide_spec cfg _ (by norm_num [IntTy.min]) ?_ 126 (n / 4) ?_ ?_
    · intro z h0 h1
      simp only [IntTy.max, IntTy.wrap, if_true] at h1 ⊢
      apply Int.bmod_eq_of_le <;> norm_num <;> norm_num at h1 <;> omega
    · norm_num; omega
    · have h1 : Nat.sqrt (n / 4 / 4) < 2 ^ 62 := by
        rw [Nat.sqrt_lt]; norm_num at hn2 ⊢; omega
      have h2 : (2 * Nat.sqrt (n / 4 / 4) + 1) * (2 * Nat.sqrt (n / 4 / 4) + 1) ≤
          (2 ^ 63 - 1) * (2 ^ 63 - 1) := Nat.mul_le_mul (by omega) (by omega)
      simp only [IntTy.max, if_true]
      exact le_trans (Int.ofNat_le.2 h2) (by norm_num)
  unfold sqrtPrim
  rw [if_pos (by norm_num), show (128 : Nat) = 127 + 1 from rfl]
  unfold sqrtWide
  rw [hda, ok_bind, if_neg (by
    intro hc
    have : n < 2 ^ 64 := by exact_mod_cast hc.2
    norm_num at hn this; omega)]
  rw [show (n : Int) / 4 = ((n / 4 : Nat) : Int) by push_cast; rfl, hrec, ok_bind]
  have hw : IntTy.wrap ⟨true, 128⟩ (((6521908912666391106 : Nat) : Int) * 2) =
      13043817825332782212 := by decide +kernel
  have ha : (IntTy.arith cfg ⟨true, 128⟩ ((13043817825332782212 : Int) + 1) : Res ε Int) =
      .ok 13043817825332782213 := by
    unfold IntTy.arith
    rw [if_pos (by decide +kernel)]
    rfl
  dsimp only
  rw [hw, ha, ok_bind]
  have hm : (IntTy.arith cfg ⟨true, 128⟩ ((13043817825332782213 : Int) * 13043817825332782213)
      : Res ε Int) = if cfg.overflowChecks then .panic
        else .ok (-170141183460469231714719169980479034087) := by
    unfold IntTy.arith
    rw [if_neg (by decide +kernel)]
    rw [show IntTy.wrap ⟨true, 128⟩ ((13043817825332782213 : Int) * 13043817825332782213) =
      -170141183460469231714719169980479034087 by decide +kernel]
  rw [hm]
  split
  · rfl
  · rw [ok_bind, if_pos (by have := Int.natCast_nonneg n; omega)]

/-! ## 256 bits -/

namespace U256

theorem leadingZeros_bits (x : U256) : 4 * 64 - x.leadingZeros = x.bits := by
  have z : UInt.leadingZeros (0 : W64) = 64 := by decide
  have h3 : UInt.leadingZeros x.w3 ≤ 64 := by unfold UInt.leadingZeros; split <;> omega
  have h2 : UInt.leadingZeros x.w2 ≤ 64 := by unfold UInt.leadingZeros; split <;> omega
  have h1 : UInt.leadingZeros x.w1 ≤ 64 := by unfold UInt.leadingZeros; split <;> omega
  have h0 : UInt.leadingZeros x.w0 ≤ 64 := by unfold UInt.leadingZeros; split <;> omega
  unfold leadingZeros bits
  by_cases c3 : x.w3 = 0
  · by_cases c2 : x.w2 = 0
    · by_cases c1 : x.w1 = 0
      · simp only [List.foldl, c3, c2, c1, z, ne_eq, not_true_eq_false, if_false, bne_self_eq_false,
          Bool.false_eq_true]
        omega
      · have c1' : (x.w1 != 0) = true := by simpa using c1
        simp only [List.foldl, c3, c2, c1, c1', z, ne_eq, not_true_eq_false, if_false,
          bne_self_eq_false, not_false_eq_true, if_true, Bool.false_eq_true]
        omega
    · have c2' : (x.w2 != 0) = true := by simpa using c2
      simp only [List.foldl, c3, c2, c2', z, ne_eq, not_true_eq_false, if_false,
        bne_self_eq_false, not_false_eq_true, if_true, Bool.false_eq_true]
      omega
  · have c3' : (x.w3 != 0) = true := by simpa using c3
    simp only [List.foldl, c3, c3', ne_eq, if_false, not_false_eq_true, if_true,
      Bool.false_eq_true]
    omega

theorem bits_le_iff (x : U256) (k : Nat) : x.bits ≤ k ↔ x.toNat < 2 ^ k := by
  by_cases h0 : x.toNat = 0
  · rw [bits_zero x h0, h0]; simp
  · obtain ⟨_, _, h3, h4⟩ := bits_spec x h0
    constructor
    · intro h
      exact lt_of_lt_of_le h4 (Nat.pow_le_pow_right (by norm_num) h)
    · intro h
      have := (Nat.pow_lt_pow_iff_right (by norm_num : 1 < 2)).1 (lt_of_le_of_lt h3 h)
      omega

theorem ofU128_toNat (x : BitVec 128) : (ofU128 x).toNat = x.toNat := by
  have := I256.ofU128_toInt x
  have hx := x.isLt
  unfold I256.ofU128 I256.toInt at this
  have h2 := toNat_lt (ofU128 x)
  simp only at this
  split at this <;> omega

theorem tryToU128_some (x : U256) (h : x.toNat < 2 ^ 128) :
    ∃ v, tryToU128 x = some v ∧ v.toNat = x.toNat := by
  refine ⟨_, by
    unfold tryToU128
    rw [leadingZeros_bits, if_neg (not_lt.2 ((bits_le_iff x 128).2 h))], ?_⟩
  rw [I256.low128_toNat]
  unfold toNat at h ⊢
  have h0 := x.w0.isLt; have h1 := x.w1.isLt
  omega

theorem tryToU128_none (x : U256) (h : ¬ x.toNat < 2 ^ 128) : tryToU128 x = none := by
  unfold tryToU128
  rw [leadingZeros_bits, if_pos (not_le.1 (fun hc => h ((bits_le_iff x 128).1 hc)))]

theorem or_one_toNat (x : U256) (h : x.toNat % 2 = 0) :
    ({ x with w0 := x.w0 ||| 1 } : U256).toNat = x.toNat + 1 := by
  have hw : x.w0.toNat % 2 = 0 := by unfold toNat at h; omega
  have : (x.w0 ||| 1).toNat = x.w0.toNat + 1 := by
    rw [BitVec.toNat_or, show BitVec.toNat (1 : W64) = 1 from rfl, Nat.or_comm]
    have e : x.w0.toNat = x.w0.toNat / 2 * 2 ^ 1 := by omega
    rw [e, or_add_of_lt' _ _ _ (by norm_num)]
    omega
  unfold toNat
  simp only [this]
  omega

/-- `U256::sqrt` is the integer square root, for every argument. -/
theorem sqrt_spec (cfg : Cfg) (fuel : Nat) : ∀ x : U256, x.toNat < 2 ^ 128 * 4 ^ fuel →
    ∃ r, (sqrt cfg (fuel + 1) x : Res ε U256) = .ok r ∧ r.toNat = Nat.sqrt x.toNat := by
  have small : ∀ (fuel : Nat) (x : U256), x.toNat < 2 ^ 128 →
      ∃ r, (sqrt cfg (fuel + 1) x : Res ε U256) = .ok r ∧ r.toNat = Nat.sqrt x.toNat := by
    intro fuel x hx
    obtain ⟨v, hv, ev⟩ := tryToU128_some x hx
    refine ⟨_, by
      unfold sqrt
      rw [hv]
      dsimp only
      rw [sqrtPrim_u128 cfg _ v.isLt, ok_bind], ?_⟩
    rw [ofU128_toNat, BitVec.toNat_ofInt, ev]
    have : Nat.sqrt x.toNat < 2 ^ 128 := lt_of_le_of_lt (Nat.sqrt_le_self _) hx
    have e : ((Nat.sqrt x.toNat : Nat) : Int) % ((2 ^ 128 : Nat) : Int) = (Nat.sqrt x.toNat : Nat) :=
      Int.emod_eq_of_lt (Int.natCast_nonneg _) (by exact_mod_cast this)
    rw [e, Int.toNat_natCast]
  induction fuel with
  | zero =>
    intro x hx
    exact small 0 x (by simpa using hx)
  | succ fuel ih =>
    intro x hx
    by_cases hs : x.toNat < 2 ^ 128
    · exact small _ x hs
    · obtain ⟨y, hy, ey⟩ := shr_spec (ε := ε) cfg x (show 2 < 64 by norm_num)
      rw [show 2 ^ 2 = 4 from rfl] at ey
      obtain ⟨r, hr, er⟩ := ih y (by
        rw [ey, Nat.div_lt_iff_lt_mul (by norm_num)]
        calc x.toNat < 2 ^ 128 * 4 ^ (fuel + 1) := hx
          _ = _ := by ring)
      have hyb : r.toNat < 2 ^ 127 := by
        rw [er, ey, Nat.sqrt_lt, Nat.div_lt_iff_lt_mul (by norm_num)]
        exact lt_of_lt_of_eq (toNat_lt x) (by norm_num)
      obtain ⟨lo, hlo, elo⟩ := shl_spec (ε := ε) cfg r (show 1 < 64 by norm_num)
      have elo : lo.toNat = 2 * r.toNat := by
        rw [elo, Nat.mod_eq_of_lt (by omega)]; omega
      have ehi := or_one_toNat lo (by omega)
      obtain ⟨sq, o, hsq, esq, _⟩ := overflowingMul_spec (ε := ε) cfg
        { lo with w0 := lo.w0 ||| 1 } { lo with w0 := lo.w0 ||| 1 }
      have esq : sq.toNat = (2 * r.toNat + 1) * (2 * r.toNat + 1) := by
        rw [esq, ehi, elo, Nat.mod_eq_of_lt]
        calc (2 * r.toNat + 1) * (2 * r.toNat + 1) ≤ (2 ^ 128 - 1) * (2 ^ 128 - 1) :=
              Nat.mul_le_mul (by omega) (by omega)
          _ < 2 ^ 256 := by norm_num
      have hdig := sqrt_digit x.toNat
      rw [← ey, ← er] at hdig
      refine ⟨_, by
        unfold sqrt
        rw [tryToU128_none x hs]
        dsimp only
        rw [hy, ok_bind, hr, ok_bind, hlo, ok_bind, hsq, ok_bind], ?_⟩
      rw [← hdig, cmp_spec]
      by_cases hc : (2 * r.toNat + 1) * (2 * r.toNat + 1) ≤ x.toNat
      · rw [if_pos (by rw [Ne, compare_gt_iff_gt, esq]; omega), if_pos hc, ehi, elo]
      · rw [if_neg (by rw [not_not, compare_gt_iff_gt, esq]; omega), if_neg hc, elo]

end U256

/-- `I256::sqrt` is the integer square root for every non-negative argument. -/
theorem I256.sqrt_spec (cfg : Cfg) (x : I256) (h : 0 ≤ x.toInt) :
    ∃ r, (I256.sqrt cfg x : Res ε I256) = .ok r ∧ r.toInt = (Nat.sqrt x.toInt.toNat : Nat) := by
  have hin : x.inner.toNat < 2 ^ 255 ∧ x.toInt = x.inner.toNat := by
    have := U256.toNat_lt x.inner
    unfold I256.toInt at h ⊢
    split <;> rename_i hc
    · exact ⟨hc, rfl⟩
    · rw [if_neg hc] at h; omega
  obtain ⟨r, hr, er⟩ := U256.sqrt_spec (ε := ε) cfg 127 x.inner
    (lt_trans hin.1 (by norm_num))
  have hda : (debugAssert cfg (decide (I256.cmp x I256.zero ≠ .lt)) : Res ε Unit) = .ok () := by
    unfold debugAssert
    rw [I256.cmp_spec, I256.zero_toInt, decide_eq_true (by
      rw [Ne, compare_lt_iff_lt]; omega)]
    simp
  refine ⟨⟨r⟩, by
    unfold I256.sqrt
    rw [hda, ok_bind, hr, ok_bind], ?_⟩
  rw [I256.toInt_of_lt, er, hin.2, Int.toNat_natCast]
  rw [er]
  exact lt_of_le_of_lt (Nat.sqrt_le_self _) hin.1

end Fixnum
