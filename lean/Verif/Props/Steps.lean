import Verif.Props.SqrtGuess
import Verif.Props.Decimal

/-!
# Property C109: how often the loops run

In the model a loop carries an argument that bounds its iterations, and running out of it is the
outcome `diverge`.  So "`n` iterations suffice" is: with that bound the loop returns.  A bound of
`n + 1` admits `n` iterations and the last test; if the loop is left from its body, `n` admits `n`.
-/

namespace Fixnum

open Res Spec

variable {L : Layout} {P : Nat} {ε : Type}

/-! ## The square root without `std` -/

/-- The distance to an upper bound `r` of the root is squared, relative to `r`. -/
theorem newton_excess {n r x : Nat} (hn : n ≤ r * r) (hx : r ≤ x) (hr : 0 < r) :
    2 * (r : ℚ) * ((newton n x : ℚ) - r) ≤ ((x : ℚ) - r) ^ 2 := by
  have hx0 : 0 < x := by omega
  have h1 : 2 * newton n x * x ≤ n + x * x := by
    have a : 2 * newton n x ≤ n / x + x := by unfold newton; omega
    have b : n / x * x ≤ n := Nat.div_mul_le_self n x
    calc 2 * newton n x * x ≤ (n / x + x) * x := Nat.mul_le_mul_right _ a
      _ = n / x * x + x * x := by ring
      _ ≤ _ := by omega
  have h2 : 2 * (newton n x : ℚ) * x ≤ r * r + x * x := by
    exact_mod_cast le_trans h1 (Nat.add_le_add_right hn _)
  have h3 : (r : ℚ) ≤ x := by exact_mod_cast hx
  have h4 : (0 : ℚ) < r := by exact_mod_cast hr
  rcases le_total (newton n x : ℚ) r with h | h
  · have := sq_nonneg ((x : ℚ) - r)
    nlinarith
  · nlinarith

/-- One step from a point at most `c · r` above `r`. -/
theorem newton_contract {n r x : Nat} (hn : n ≤ r * r) (hr : 0 < r) (hs : Nat.sqrt n ≤ x)
    (hs1 : Nat.sqrt n + 1 = r) (hs0 : 0 < Nat.sqrt n) {c : ℚ} (h : (x : ℚ) ≤ r + c * r) : (newton n x : ℚ) ≤ r + c ^ 2 / 2 * r := by
  have hr' : (0 : ℚ) < r := by exact_mod_cast hr
  rcases Nat.lt_or_ge x r with hx | hx
  · have hx : x = Nat.sqrt n := by omega
    have : (newton n x : ℚ) ≤ r := by
      have := newton_self n hs0
      rw [hx]
      exact_mod_cast (by omega : newton n (Nat.sqrt n) ≤ r)
    have : 0 ≤ c ^ 2 / 2 * (r : ℚ) := by positivity
    linarith
  · have h1 := newton_excess hn hx hr
    have h2 : (r : ℚ) ≤ x := by exact_mod_cast hx
    have h3 : ((x : ℚ) - r) ^ 2 ≤ (c * r) ^ 2 := pow_le_pow_left₀ (by linarith) (by linarith) 2
    have h4 : 2 * (r : ℚ) * ((newton n x : ℚ) - r) ≤ 2 * r * (c ^ 2 / 2 * r) := by
      calc _ ≤ (c * (r : ℚ)) ^ 2 := h1.trans h3
        _ = _ := by ring
    have := le_of_mul_le_mul_left h4 (by positivity)
    linarith

/-- The first step from a point within a factor `√2` of the root. -/
theorem newton_first {n g r : Nat} (hg : 0 < g) (h1 : g * g ≤ 2 * n) (h2 : n < 2 * (g * g))
    (h3 : n < r * r) : (newton n g : ℚ) ≤ r + 607 / 10000 * r := by
  have hr : 0 < r := by
    rcases Nat.eq_zero_or_pos r with h | h
    · rw [h] at h3; omega
    · exact h
  have hg' : (0 : ℚ) < g := by exact_mod_cast hg
  have hr' : (0 : ℚ) < r := by exact_mod_cast hr
  have a : 2 * (newton n g : ℚ) * g ≤ n + g * g := by
    have a : 2 * newton n g ≤ n / g + g := by unfold newton; omega
    have b : n / g * g ≤ n := Nat.div_mul_le_self n g
    have : 2 * newton n g * g ≤ n + g * g := by
      calc 2 * newton n g * g ≤ (n / g + g) * g := Nat.mul_le_mul_right _ a
        _ = n / g * g + g * g := by ring
        _ ≤ _ := by omega
    exact_mod_cast this
  have q1 : (g : ℚ) * g ≤ 2 * n := by exact_mod_cast h1
  have q2 : (n : ℚ) < 2 * (g * g) := by exact_mod_cast h2
  have q3 : (n : ℚ) < r * r := by exact_mod_cast h3
  -- `n + g² ≤ (a + 1/a) g r` for `a` a little more than `√2`
  have key : (n : ℚ) + g * g ≤ 2 * (10607 / 10000) * r * g := by
    have b1 : (g : ℚ) ≤ 14143 / 10000 * r := by
      by_contra hc
      nlinarith
    rcases le_total (r : ℚ) (14143 / 10000 * g) with h | h
    · have : 0 ≤ (14143 / 10000 * (g : ℚ) - r) * (r - 10000 / 14143 * g) :=
        mul_nonneg (by linarith) (by linarith)
      nlinarith
    · nlinarith
  have : 2 * (newton n g : ℚ) * g ≤ 2 * (10607 / 10000 * r) * g := by linarith
  have := le_of_mul_le_mul_right this hg'
  linarith

/-- Five steps from such a point. -/
theorem newton_five {n g : Nat} (hn : 4 ≤ n) (hn2 : n < 2 ^ 64) (h1 : g * g ≤ 2 * n)
    (h2 : n < 2 * (g * g)) : newton n (newton n (newton n (newton n (newton n g)))) = Nat.sqrt n ∨
      newton n (newton n (newton n (newton n g))) = Nat.sqrt n := by
  have hg : 0 < g := by
    rcases Nat.eq_zero_or_pos g with h | h
    · rw [h] at h2; omega
    · exact h
  have hs0 : 0 < Nat.sqrt n := Nat.sqrt_pos.2 (by omega)
  obtain ⟨r, hr⟩ : ∃ r, Nat.sqrt n + 1 = r := ⟨_, rfl⟩
  have h3 : n < r * r := by rw [← hr]; exact Nat.lt_succ_sqrt n
  have hr0 : 0 < r := by omega
  have hr32 : r ≤ 2 ^ 32 := by
    have : Nat.sqrt n < 2 ^ 32 := by rw [Nat.sqrt_lt]; omega
    omega
  have e1 := newton_first hg h1 h2 h3
  have g1 := newton_ge n g hg
  generalize newton n g = x1 at *
  have e2 := newton_contract h3.le hr0 g1 hr hs0 e1
  have g2 := newton_ge n x1 (by omega)
  generalize newton n x1 = x2 at *
  have e3 := newton_contract h3.le hr0 g2 hr hs0 e2
  have g3 := newton_ge n x2 (by omega)
  generalize newton n x2 = x3 at *
  have e4 := newton_contract h3.le hr0 g3 hr hs0 e3
  have g4 := newton_ge n x3 (by omega)
  generalize newton n x3 = x4 at *
  have h4 : x4 < r + 1 := by
    have hrq : (r : ℚ) ≤ 4294967296 := by exact_mod_cast hr32
    have : (x4 : ℚ) < r + 1 := by
      refine lt_of_le_of_lt e4 ?_
      have hc : ((((607 : ℚ) / 10000) ^ 2 / 2) ^ 2 / 2) ^ 2 / 2 ≤ 1 / 2 ^ 36 := by norm_num
      have := mul_le_mul_of_nonneg_right hc (by positivity : (0 : ℚ) ≤ r)
      have : (1 : ℚ) / 2 ^ 36 * r < 1 := by
        have : (1 : ℚ) / 2 ^ 36 = 1 / 68719476736 := by norm_num
        rw [this]; linarith
      linarith
    exact_mod_cast this
  rcases Nat.lt_or_ge x4 r with h | h
  · right; omega
  · left
    have hx : x4 = Nat.sqrt n + 1 := by omega
    have a := newton_lt (n := n) (x := x4) (by omega)
    have b := newton_ge n x4 (by omega)
    omega

/-- The descending loop stops at the root. -/
theorem fixpointDown_steps (cfg : Cfg) (t : IntTy) (ht : t.min ≤ 0) (n : Nat)
    (h0 : 0 < Nat.sqrt n) (hS : ((2 * Nat.sqrt n + 2 : Nat) : Int) ≤ t.max) : ∀ (k x : Nat),
    Nat.sqrt n ≤ x → ((2 * newton n x : Nat) : Int) ≤ t.max →
    (∃ j ≤ k, (newton n)^[j] x = Nat.sqrt n) →
    (fixpointDown cfg t n (k + 1) x (newton n x : Nat) : Res ε Int) = .ok (Nat.sqrt n : Nat)
  | k, x, hx, hM, hk => by
    unfold fixpointDown
    rcases eq_or_lt_of_le hx with h | h
    · have := newton_ge n x (by omega)
      rw [if_neg (by rw [← h] at this ⊢; exact not_lt.2 (by exact_mod_cast this)), h]
    · have hlt := newton_lt h
      have hge := newton_ge n x (by omega)
      rw [if_pos (by exact_mod_cast hlt)]
      rw [sqrtNext_spec cfg t ht n (newton n x) (by omega) (by
        rcases eq_or_lt_of_le hge with h | h
        · refine le_trans ?_ hS
          have := div_self_le n h0
          rw [← h]
          exact_mod_cast (by omega : n / Nat.sqrt n + Nat.sqrt n ≤ 2 * Nat.sqrt n + 2)
        · refine le_trans ?_ hM
          have := div_le_sqrt h
          exact_mod_cast (by omega : n / newton n x + newton n x ≤ 2 * newton n x))]
      rw [ok_bind]
      obtain ⟨j, hj, e⟩ := hk
      cases j with
      | zero => exact absurd e h.ne'
      | succ j =>
        obtain ⟨k, rfl⟩ : ∃ i, k = i + 1 := ⟨k - 1, by omega⟩
        refine fixpointDown_steps cfg t ht n h0 hS k (newton n x) hge ?_ ⟨j, by omega, e⟩
        rcases eq_or_lt_of_le hge with h | h
        · refine le_trans ?_ hS
          have := newton_self n h0
          rw [← h]
          exact_mod_cast (by omega : 2 * newton n (Nat.sqrt n) ≤ 2 * Nat.sqrt n + 2)
        · refine le_trans ?_ hM
          have := newton_lt h
          exact_mod_cast (by omega : 2 * newton n (newton n x) ≤ 2 * newton n x)

/-- From below the root one step does not land on the root if the root is not a fixed point. -/
theorem newton_skips {n x : Nat} (hx : 0 < x) (h : x < Nat.sqrt n) (hn : newton n x = Nat.sqrt n) :
    newton n (Nat.sqrt n) = Nat.sqrt n := by
  have s0 : 0 < Nat.sqrt n := by omega
  have a := newton_ge n (Nat.sqrt n) s0
  have b := newton_self n s0
  by_contra hc
  have e : newton n (Nat.sqrt n) = Nat.sqrt n + 1 := by omega
  generalize Nat.sqrt n = s at *
  -- `n ≥ s² + 2 s`
  have h1 : s + 2 ≤ n / s := by unfold newton at e; omega
  have h2 : (s + 2) * s ≤ n := (Nat.le_div_iff_mul_le s0).1 h1
  obtain ⟨k, hk⟩ : ∃ k, s = x + k := ⟨s - x, by omega⟩
  have h3 : s + k + 2 ≤ n / x := by
    rw [Nat.le_div_iff_mul_le hx]
    refine le_trans ?_ h2
    rw [hk]
    nlinarith
  unfold newton at hn
  omega

/-- C109: without `std` the root of an integer of at most 64 bits takes at most six evaluations of
the step: one before the loops, and either none in the first loop and at most five in the second, or
one in the first and at most four in the second. -/
theorem C109_sqrt_six_steps {cfg : Cfg} (hstd : cfg.std = false) {t : IntTy}
    (ht : t.bits = 8 ∨ t.bits = 16 ∨ t.bits = 32 ∨ t.bits = 64) {n : Nat} (hn : 4 ≤ n)
    (hnt : (n : Int) ≤ t.max) :
    ∃ s : Nat, s ^ 2 ≤ n ∧ n < (s + 1) ^ 2 ∧
      (((do
        let g ← sqrtGuess cfg t n
        let xn ← sqrtNext cfg t n g
        let st ← fixpointUp cfg t n 1 g xn
        fixpointDown cfg t n 6 st.1 st.2) : Res ε Int) = .ok (s : Int) ∨
      ((do
        let g ← sqrtGuess cfg t n
        let xn ← sqrtNext cfg t n g
        let st ← fixpointUp cfg t n 2 g xn
        fixpointDown cfg t n 5 st.1 st.2) : Res ε Int) = .ok (s : Int)) := by
  have hmin : t.min ≤ 0 := by
    unfold IntTy.min
    split
    · exact neg_nonpos.2 (by positivity)
    · rfl
  have hlow : 127 ≤ t.max := by
    obtain ⟨s, b⟩ := t
    simp only at ht
    rcases ht with rfl | rfl | rfl | rfl <;> cases s <;> norm_num [IntTy.max]
  have hn64 : n < 2 ^ 64 := by
    have : t.max < 2 ^ 64 := by
      obtain ⟨s, b⟩ := t
      simp only at ht
      rcases ht with rfl | rfl | rfl | rfl <;> cases s <;> norm_num [IntTy.max]
    exact_mod_cast lt_of_le_of_lt hnt this
  obtain ⟨k, hk, h1, h2, -⟩ := C99_guess_nostd (ε := ε) hstd ht hn hnt
  generalize hg : 2 ^ k = g at *
  rw [pow_two] at h1 h2
  have hg0 : 0 < g := by rw [← hg]; positivity
  have s1 : Nat.sqrt n * Nat.sqrt n ≤ n := Nat.sqrt_le n
  have s2 : n < (Nat.sqrt n + 1) * (Nat.sqrt n + 1) := Nat.lt_succ_sqrt n
  have hs2 : 2 ≤ Nat.sqrt n := by rw [Nat.le_sqrt]; omega
  have hS : ((2 * Nat.sqrt n + 2 : Nat) : Int) ≤ t.max := by
    rcases Nat.lt_or_ge (Nat.sqrt n) 3 with h | h
    · exact le_trans (by exact_mod_cast (by omega : 2 * Nat.sqrt n + 2 ≤ 127)) hlow
    · have : 3 * Nat.sqrt n ≤ Nat.sqrt n * Nat.sqrt n := Nat.mul_le_mul_right _ h
      exact le_trans (by exact_mod_cast (by omega : 2 * Nat.sqrt n + 2 ≤ n)) hnt
  have hM : ((n / g + g : Nat) : Int) ≤ t.max := by
    have hq : n / g < 2 * g := by
      rw [Nat.div_lt_iff_lt_mul hg0]
      calc n < 2 * (g * g) := h2
        _ = 2 * g * g := by ring
    have h3 : ((n / g + g : Nat) : Int) ≤ 3 * g := by exact_mod_cast (by omega : n / g + g ≤ 3 * g)
    refine le_trans h3 ?_
    have h4 : (g : Int) * g ≤ 2 * n := by exact_mod_cast h1
    by_contra hc
    nlinarith
  have hM2 : ((2 * newton n g : Nat) : Int) ≤ t.max :=
    le_trans (by exact_mod_cast (by unfold newton; omega : 2 * newton n g ≤ n / g + g)) hM
  have hnext : (sqrtNext cfg t n g : Res ε Int) = .ok (newton n g : Nat) :=
    sqrtNext_spec cfg t hmin n g hg0 hM
  have h5 := newton_five hn hn64 h1 h2
  have hge := newton_ge n g hg0
  refine ⟨Nat.sqrt n, by rw [pow_two]; exact s1, by rw [pow_two]; exact s2, ?_⟩
  rcases Nat.lt_or_ge g (newton n g) with hlt | hle
  · -- one ascending step
    right
    have hx1 : (sqrtNext cfg t n (newton n g : Nat) : Res ε Int) =
        .ok (newton n (newton n g) : Nat) := by
      refine sqrtNext_spec cfg t hmin n _ (by omega) ?_
      rcases eq_or_lt_of_le hge with h | h
      · refine le_trans ?_ hS
        have := div_self_le n (by omega)
        rw [← h]
        exact_mod_cast (by omega : n / Nat.sqrt n + Nat.sqrt n ≤ 2 * Nat.sqrt n + 2)
      · refine le_trans ?_ hM2
        have := div_le_sqrt h
        exact_mod_cast (by omega : n / newton n g + newton n g ≤ 2 * newton n g)
    have hstop : newton n (newton n g) ≤ newton n g := by
      rcases eq_or_lt_of_le hge with h | h
      · rw [← h]
        rcases Nat.lt_or_ge g (Nat.sqrt n) with h' | h'
        · exact (newton_skips hg0 h' h.symm).le
        · omega
      · exact (newton_lt h).le
    have hup : (fixpointUp cfg t n 2 g (newton n g : Nat) : Res ε _) =
        .ok ((newton n g : Nat), (newton n (newton n g) : Nat)) := by
      unfold fixpointUp
      rw [if_pos (by exact_mod_cast hlt), hx1, ok_bind]
      unfold fixpointUp
      rw [if_neg (not_lt.2 (by exact_mod_cast hstop))]
    rw [hk, ok_bind, hnext, ok_bind, hup, ok_bind]
    refine fixpointDown_steps cfg t hmin n (by omega) hS 4 _ hge ?_ ?_
    · exact le_trans (by exact_mod_cast (by omega : 2 * newton n (newton n g) ≤ 2 * newton n g)) hM2
    · rcases h5 with h | h
      · exact ⟨4, by omega, h⟩
      · exact ⟨3, by omega, h⟩
  · left
    have hup : (fixpointUp cfg t n 1 g (newton n g : Nat) : Res ε _) =
        .ok ((g : Nat), (newton n g : Nat)) := by
      unfold fixpointUp
      rw [if_neg (not_lt.2 (by exact_mod_cast hle))]
    rw [hk, ok_bind, hnext, ok_bind, hup, ok_bind]
    refine fixpointDown_steps cfg t hmin n (by omega) hS 5 _ (by omega) hM2 ?_
    rcases h5 with h | h
    · exact ⟨5, by omega, h⟩
    · exact ⟨4, by omega, h⟩

example := C109_sqrt_six_steps (ε := Unit) (cfg := ⟨true, true, false, true⟩) rfl (t := ⟨false, 64⟩)
  (.inr (.inr (.inr rfl))) (n := 587918500710115041) (by norm_num) (by decide +kernel)

/-! ## The recursion for wide integers -/

/-- C109: the root of a `u128` takes at most 32 divisions by four before it is one of a `u64`. -/
theorem C109_sqrt_u128_depth (cfg : Cfg) (n : Nat) (hn : n < 2 ^ 128) :
    ∃ s : Nat, s ^ 2 ≤ n ∧ n < (s + 1) ^ 2 ∧
      (sqrtWide cfg ⟨false, 128⟩ 33 n : Res ε Int) = .ok (s : Int) := by
  refine ⟨Nat.sqrt n, Nat.sqrt_le' n, Nat.lt_succ_sqrt' n, ?_⟩
  refine sqrtWide_spec cfg _ (by simp [IntTy.min]) ?_ 32 n
    (lt_of_lt_of_le hn (by norm_num)) ?_
  · intro z h0 h1
    simp only [IntTy.max, IntTy.wrap, Bool.false_eq_true, if_false] at h1 ⊢
    exact Int.emod_eq_of_lt h0 (by omega)
  · have h1 : Nat.sqrt (n / 4) < 2 ^ 63 := by
      rw [Nat.sqrt_lt, Nat.div_lt_iff_lt_mul (by norm_num)]
      exact lt_of_lt_of_eq hn (by norm_num)
    have h2 : (2 * Nat.sqrt (n / 4) + 1) * (2 * Nat.sqrt (n / 4) + 1) ≤ (2 ^ 64 - 1) * (2 ^ 64 - 1) :=
      Nat.mul_le_mul (by omega) (by omega)
    simp only [IntTy.max, Bool.false_eq_true, if_false]
    refine le_trans (Int.ofNat_le.2 h2) (by norm_num)

example := C109_sqrt_u128_depth (ε := Unit) releaseCfg (2 ^ 128 - 1) (by norm_num)

/-- C109: the root of a `U256` takes at most 64 divisions by four before it is one of a `u128`. -/
theorem C109_sqrt_u256_depth (cfg : Cfg) (x : U256) :
    ∃ r, (U256.sqrt cfg 65 x : Res ε U256) = .ok r ∧ r.toNat ^ 2 ≤ x.toNat ∧
      x.toNat < (r.toNat + 1) ^ 2 := by
  obtain ⟨r, hr, er⟩ := U256.sqrt_spec (ε := ε) cfg 64 x
    (lt_of_lt_of_le (U256.toNat_lt x) (by norm_num))
  exact ⟨r, hr, er ▸ Nat.sqrt_le' _, er ▸ Nat.lt_succ_sqrt' _⟩

example := C109_sqrt_u256_depth (ε := Unit) releaseCfg ⟨5, 0, 0, 2 ^ 63⟩

/-! ## The digits of the long division -/

/-- C109: a digit of `div_mod_word` is corrected at most twice.  `u` and `un` are the part of the
dividend above and the half-word to be brought down, `yn1` and `yn0` the halves of the normalised
divisor; `q` and `r` the trial digit and its remainder. -/
theorem C109_word_digit (cfg : Cfg) (yn1 yn0 un : W64) (hy1 : 2 ^ 31 ≤ yn1.toNat)
    (hy1' : yn1.toNat < 2 ^ 32) (hy0 : yn0.toNat < 2 ^ 32) (hun : un.toNat < 2 ^ 32) (u : Nat)
    (hu : u < yn1.toNat * 2 ^ 32 + yn0.toNat) (q r : W64) (hq : q.toNat = u / yn1.toNat)
    (hr : r.toNat = u % yn1.toNat) :
    ∃ q' r' : W64, (U256.dmwLoop cfg yn1 yn0 un 2 q r : Res ε _) = .ok (q', r') ∧
      q'.toNat = (u * 2 ^ 32 + un.toNat) / (yn1.toNat * 2 ^ 32 + yn0.toNat) := by
  obtain ⟨q', r', h1, h2, -⟩ := U256.dmwLoop_full (ε := ε) cfg yn1 yn0 un hy1 hy1' hy0 hun u hu q r
    hq hr (n := 2) le_rfl
  exact ⟨q', r', h1, h2⟩

example := C109_word_digit (ε := Unit) releaseCfg (2 ^ 31) (2 ^ 32 - 1) 0 (by decide) (by decide)
  (by decide) (by decide) ((2 ^ 32 - 1) * 2 ^ 31) (by decide +kernel) (2 ^ 32 - 1) 0
  (by decide +kernel) (by decide +kernel)

/-- C109: a trial digit of `div_mod_knuth` is corrected at most twice in the loop. -/
theorem C109_knuth_digit (cfg : Cfg) (vn1 vn2 u2 : W64) (hv : 2 ^ 63 ≤ vn1.toNat) (u : Nat)
    (q r : W64) (hq : q.toNat = u / vn1.toNat) (hr : r.toNat = u % vn1.toNat) :
    ∃ q' : W64, (U256.qhatLoop cfg vn1 vn2 u2 2 q r : Res ε _) = .ok q' ∧
      q'.toNat = (u * 2 ^ 64 + u2.toNat) / (vn1.toNat * 2 ^ 64 + vn2.toNat) := by
  have hu : u = q.toNat * vn1.toNat + r.toNat := by
    rw [hq, hr, Nat.mul_comm]; exact (Nat.div_add_mod _ _).symm
  have hrv : r.toNat < vn1.toNat := by rw [hr]; exact Nat.mod_lt _ (by omega)
  exact U256.qhatLoop_spec (ε := ε) cfg vn1 vn2 u2 hv _ u rfl 2 q r hu
    (by rw [hu]; exact U256.trial_ge hrv u2.isLt) (by omega)

example := C109_knuth_digit (ε := Unit) releaseCfg (2 ^ 63) (-1) 0 (by decide +kernel)
  ((2 ^ 64 - 1) * 2 ^ 63) (-1) 0 (by decide +kernel) (by decide +kernel)

/-! ## The trailing zeros of a decimal -/

/-- C109: the loop of `to_decimal` runs less often than the mantissa has digits. -/
theorem C109_to_decimal (maxExp : Int) (k : Nat) (m : BitVec L.bits) (e : Int) (h0 : m.toInt ≠ 0)
    (hm : |m.toInt| < 10 ^ k) (he : e ≤ maxExp) :
    ∃ m' e', (FP.toDecimalLoop maxExp k m e : Res ε _) = .ok (m', e') ∧
      m.toInt = m'.toInt * 10 ^ (e' - e).toNat := by
  obtain ⟨m', e', h1, -, -, h2, -⟩ := toDecimalLoop_spec (ε := ε) maxExp k m e h0 hm he
  exact ⟨m', e', h1, h2⟩

example := C109_to_decimal (L := .i16) (ε := Unit) 9 5 12300 0 (by decide) (by decide) (by decide)

/-! ## Non-vacuity: the bounds are attained -/

/-- The root with bounds for the two loops, for the examples. -/
private def rootWithin (up down : Nat) (n : Int) : Res Unit Int := do
  let cfg : Cfg := ⟨true, true, false, true⟩
  let g ← sqrtGuess cfg ⟨false, 64⟩ n
  let xn ← sqrtNext cfg ⟨false, 64⟩ n g
  let st ← fixpointUp cfg ⟨false, 64⟩ n up g xn
  fixpointDown cfg ⟨false, 64⟩ n down st.1 st.2

example : rootWithin 1 6 587918500710115041 = .ok 766758436 ∧
    rootWithin 1 5 587918500710115041 = .fault .diverge ∧
    rootWithin 2 5 549263406368434816 = .ok 741123070 ∧
    rootWithin 1 6 549263406368434816 = .fault .diverge ∧
    rootWithin 2 4 549263406368434816 = .fault .diverge ∧
    (587918500710115041 : Int) ≤ IntTy.max ⟨false, 64⟩ := by decide +kernel
example : (sqrtWide releaseCfg ⟨false, 128⟩ 33 (2 ^ 128 - 1) : Res Unit Int) = .ok (2 ^ 64 - 1) ∧
    (sqrtWide releaseCfg ⟨false, 128⟩ 32 (2 ^ 128 - 1) : Res Unit Int) = .fault .diverge := by
  decide +kernel
example : (U256.sqrt releaseCfg 64 ⟨-1, -1, -1, -1⟩ : Res Unit U256) = .fault .diverge := by
  decide +kernel
-- two corrections are needed: the divisor is `2^31 * 2^32 + (2^32 - 1)`
example : (U256.dmwLoop releaseCfg (2 ^ 31) (2 ^ 32 - 1) 0 2 (2 ^ 32 - 1) 0 : Res Unit _) =
      .ok (4294967293, 4294967296) ∧
    (U256.dmwLoop releaseCfg (2 ^ 31) (2 ^ 32 - 1) 0 1 (2 ^ 32 - 1) 0 : Res Unit _) =
      .fault .diverge ∧ (2 ^ 32 - 1) * 2 ^ 31 < 2 ^ 31 * 2 ^ 32 + (2 ^ 32 - 1) := by
  decide +kernel
example : (U256.qhatLoop releaseCfg (2 ^ 63) (-1) 0 2 (-1) 0 : Res Unit _) = .ok (-3) ∧
    (U256.qhatLoop releaseCfg (2 ^ 63) (-1) 0 1 (-1) 0 : Res Unit _) = .fault .diverge := by
  decide +kernel
example : (FP.toDecimalLoop (L := .i16) 9 5 10000 0 : Res Unit _) = .ok (1, 4) ∧
    (FP.toDecimalLoop (L := .i16) 9 4 10000 0 : Res Unit _) = .fault .diverge := by decide +kernel

end Fixnum
