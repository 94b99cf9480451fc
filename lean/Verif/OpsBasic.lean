import Verif.FixedPoint
import Verif.CoefBasic

/-! # Multiplication, division at the level of raw integers -/

namespace Fixnum

open Res Spec

variable {ε : Type}

/-! ## Truncated division -/

theorem tdiv_pos_sign {n d : Int} (h : 0 < n.tdiv d) : n.sign * d.sign = 1 := by
  rcases lt_trichotomy n 0 with hn | hn | hn
  · rcases lt_trichotomy d 0 with hd | hd | hd
    · rw [Int.sign_eq_neg_one_of_neg hn, Int.sign_eq_neg_one_of_neg hd]; rfl
    · rw [hd, Int.tdiv_zero] at h; omega
    · have := Int.tdiv_nonneg (a := -n) (b := d) (by omega) (by omega)
      rw [Int.neg_tdiv] at this; omega
  · rw [hn, Int.zero_tdiv] at h; omega
  · rcases lt_trichotomy d 0 with hd | hd | hd
    · have := Int.tdiv_nonneg (a := n) (b := -d) (by omega) (by omega)
      rw [Int.tdiv_neg] at this; omega
    · rw [hd, Int.tdiv_zero] at h; omega
    · rw [Int.sign_eq_one_of_pos hn, Int.sign_eq_one_of_pos hd]; rfl

theorem tdiv_neg_sign {n d : Int} (h : n.tdiv d < 0) : n.sign * d.sign = -1 := by
  have h1 : 0 < (-n).tdiv d := by rw [Int.neg_tdiv]; omega
  have := tdiv_pos_sign h1
  rw [Int.sign_neg] at this
  linarith

theorem roundDiv_not_fits {w : Nat} (mode : RoundMode) (n d : Int)
    (h : ¬ Fits w (n.tdiv d)) : ¬ Fits w (roundDiv mode n d) := by
  have h0 : (0 : Int) < 2 ^ (w - 1) := by positivity
  unfold Fits iMin iMax at *
  unfold roundDiv
  rcases lt_trichotomy (n.tdiv d) 0 with hq | hq | hq
  · rw [tdiv_neg_sign hq]
    split <;> omega
  · omega
  · rw [tdiv_pos_sign hq]
    split <;> omega

theorem tmod_eq_zero_sign {n d : Int} (h : n.tmod d ≠ 0) (hd : d ≠ 0) :
    n.sign * d.sign = 1 ∨ n.sign * d.sign = -1 := by
  have hn : n ≠ 0 := by intro hc; rw [hc, Int.zero_tmod] at h; exact h rfl
  rcases lt_or_gt_of_ne hn with h1 | h1 <;> rcases lt_or_gt_of_ne hd with h2 | h2 <;>
    simp [Int.sign_eq_neg_one_of_neg, Int.sign_eq_one_of_pos, h1, h2]

theorem roundDiv_no_loss (mode : RoundMode) {n d : Int} (hd : d ≠ 0) (h : n.tmod d = 0) :
    roundDiv mode n d = n.tdiv d := by
  unfold roundDiv
  rw [loss_eq, h, if_neg]
  · omega
  · have := abs_pos.2 hd
    cases mode
    · exact fun h => h.1 rfl
    · show ¬ (|d| ≤ 2 * |0|)
      simp; omega
    · exact fun h => h.1 rfl

theorem two_mul_abs_fits {w : Nat} {z : Int} (h : 2 * |z| ≤ iMax w) : Fits w (|z| + |z|) := by
  have h0 : (0 : Int) < 2 ^ (w - 1) := by positivity
  have := abs_nonneg z
  unfold Fits iMin iMax at *
  omega

theorem abs_fits {w : Nat} {z : Int} (h : Fits w z) (h' : z ≠ iMin w) : Fits w |z| := by
  have h0 : (0 : Int) < 2 ^ (w - 1) := by positivity
  unfold Fits iMin iMax at *
  rcases abs_cases z with ⟨e, _⟩ | ⟨e, _⟩ <;> rw [e] <;> omega

theorem abs_not_fits {w : Nat} {z : Int} (h : Fits w z) (h' : z = iMin w) : ¬ Fits w |z| := by
  have h0 : (0 : Int) < 2 ^ (w - 1) := by positivity
  unfold Fits iMin iMax at *
  rcases abs_cases z with ⟨e, _⟩ | ⟨e, _⟩ <;> rw [e] <;> omega

theorem cast32_sign {w : Nat} {s : BitVec w} (h : s.toInt = 1 ∨ s.toInt = 0 ∨ s.toInt = -1) :
    (SInt.cast 32 s).toInt = s.toInt := by
  unfold SInt.cast
  rcases h with h | h | h <;> rw [h] <;> rfl

theorem sign_mul_cases (a b : Int) :
    a.sign * b.sign = 1 ∨ a.sign * b.sign = 0 ∨ a.sign * b.sign = -1 := by
  rcases lt_trichotomy a 0 with h1 | h1 | h1 <;> rcases lt_trichotomy b 0 with h2 | h2 | h2 <;>
    simp [Int.sign_eq_neg_one_of_neg, Int.sign_eq_one_of_pos, h1, h2]

theorem unit_fits {w : Nat} (hw : 1 < w) {z : Int} (h : z = 1 ∨ z = 0 ∨ z = -1) : Fits w z := by
  have hp : (2:Int) ≤ 2^(w-1) := by
    calc (2:Int) = 2^1 := by norm_num
      _ ≤ 2^(w-1) := pow_le_pow_right₀ (by norm_num) (by omega)
  unfold Fits iMin iMax
  omega

/-- The product of the signs, as the code computes it. -/
theorem sign_mul_spec {w : Nat} (hw : 1 < w) (cfg : Cfg) (a b : BitVec w) :
    (SInt.mul cfg (SInt.signum a) (SInt.signum b) : Res ε _) =
      .ok (BitVec.ofInt w (a.toInt.sign * b.toInt.sign)) ∧
    (BitVec.ofInt w (a.toInt.sign * b.toInt.sign)).toInt = a.toInt.sign * b.toInt.sign := by
  have hf := unit_fits hw (sign_mul_cases a.toInt b.toInt)
  refine ⟨?_, toInt_ofInt_of_fits (by omega) hf⟩
  unfold SInt.mul
  rw [SInt.signum_toInt hw, SInt.signum_toInt hw, SInt.arith_fits cfg hf]

theorem rdivTest_spec {w : Nat} (hw : 0 < w) (cfg : Cfg) (loss sign rhs : BitVec w)
    (mode : RoundMode) (hl : loss.toInt ≠ 0) (hs : sign.toInt = 1 ∨ sign.toInt = -1)
    (hn : mode = .nearest → 2 * |loss.toInt| ≤ iMax w ∧ rhs.toInt ≠ iMin w) :
    SInt.rdivTest cfg loss sign rhs mode =
      .ok (decide (lossTest mode loss.toInt rhs.toInt sign.toInt)) := by
  unfold SInt.rdivTest
  cases mode with
  | nearest =>
    obtain ⟨h1, h2⟩ := hn rfl
    have f2 := two_mul_abs_fits h1
    have f1 : Fits w |loss.toInt| := by
      have := abs_nonneg loss.toInt
      unfold Fits iMin iMax at *
      omega
    have f3 := abs_fits (toInt_fits rhs) h2
    rw [if_pos rfl]
    unfold SInt.abs SInt.add
    rw [SInt.arith_fits cfg f1, ok_bind, toInt_ofInt_of_fits hw f1, SInt.arith_fits cfg f2, ok_bind,
      SInt.arith_fits cfg f3, ok_bind, toInt_ofInt_of_fits hw f2, toInt_ofInt_of_fits hw f3]
    congr 1
    apply decide_eq_decide.2
    show _ ↔ |rhs.toInt| ≤ 2 * |loss.toInt|
    rw [two_mul]
  | ceil =>
    rw [if_neg (by decide), cast32_sign (by tauto)]
    congr 1
    apply decide_eq_decide.2
    show 1 = sign.toInt ↔ loss.toInt ≠ 0 ∧ sign.toInt = 1
    tauto
  | floor =>
    rw [if_neg (by decide), cast32_sign (by tauto)]
    congr 1
    apply decide_eq_decide.2
    show -1 = sign.toInt ↔ loss.toInt ≠ 0 ∧ sign.toInt = -1
    tauto

/-- With overflow checks, the `Nearest` test panics exactly outside the condition above. -/
theorem rdivTest_panic {w : Nat} (hw : 0 < w) (cfg : Cfg) (loss sign rhs : BitVec w)
    (hc : cfg.overflowChecks = true)
    (hn : ¬ (2 * |loss.toInt| ≤ iMax w ∧ rhs.toInt ≠ iMin w)) :
    SInt.rdivTest cfg loss sign rhs .nearest = .panic := by
  unfold SInt.rdivTest
  rw [if_pos rfl]
  unfold SInt.abs SInt.add
  by_cases h1 : Fits w |loss.toInt|
  · rw [SInt.arith_fits cfg h1, ok_bind, toInt_ofInt_of_fits hw h1]
    by_cases h2 : Fits w (|loss.toInt| + |loss.toInt|)
    · rw [SInt.arith_fits cfg h2, ok_bind]
      have : rhs.toInt = iMin w := by
        by_contra h3
        apply hn
        refine ⟨?_, h3⟩
        have := h2.2; omega
      rw [SInt.arith_panic cfg (abs_not_fits (toInt_fits rhs) this) hc, fault_bind]
    · rw [SInt.arith_panic cfg h2 hc, fault_bind]
  · rw [SInt.arith_panic cfg h1 hc, fault_bind]

theorem bind_ok' {α β : Type} (a : α) (f : α → Res ε β) : (Res.ok a).bind f = f a := id rfl

/-- Overflow by one period. -/
theorem toInt_ofInt_sub {w : Nat} (hw : 0 < w) {z : Int} (h : Fits w (z - 2 ^ w)) :
    (BitVec.ofInt w z).toInt = z - 2 ^ w := by
  rw [← toInt_ofInt_of_fits hw h, BitVec.toInt_ofInt, BitVec.toInt_ofInt]
  have : ((2 ^ w : Nat) : Int) = 2 ^ w := by push_cast; rfl
  rw [← this, Int.sub_bmod_right]

/-- Without overflow checks, outside the condition above the test is wrong in one direction: it
never rounds away, except for the divisor `MIN`, where it always does. -/
theorem rdivTest_wrap {w : Nat} (hw : 1 < w) (cfg : Cfg) (loss sign rhs : BitVec w)
    (hc : cfg.overflowChecks = false) (hlt : |loss.toInt| < |rhs.toInt|)
    (hn : ¬ (2 * |loss.toInt| ≤ iMax w ∧ rhs.toInt ≠ iMin w)) :
    SInt.rdivTest cfg loss sign rhs .nearest = .ok (decide (rhs.toInt = iMin w)) := by
  have hw0 : 0 < w := by omega
  have f := toInt_fits rhs
  have h2 : (2:Int) ^ w = 2 * 2 ^ (w - 1) := by rw [← pow_succ']; congr 1; omega
  have hp : (2:Int) ≤ 2^(w-1) := by
    calc (2:Int) = 2^1 := by norm_num
      _ ≤ 2^(w-1) := pow_le_pow_right₀ (by norm_num) (by omega)
  have hr : |rhs.toInt| ≤ 2 ^ (w - 1) := by
    rw [abs_le]; unfold Fits iMin iMax at f; omega
  have f1 : Fits w |loss.toInt| := by
    have := abs_nonneg loss.toInt
    unfold Fits iMin iMax; omega
  unfold SInt.rdivTest
  rw [if_pos rfl]
  unfold SInt.abs SInt.add
  rw [SInt.arith_fits cfg f1, ok_bind, toInt_ofInt_of_fits hw0 f1, SInt.arith_wrap cfg hc,
    ok_bind, SInt.arith_wrap cfg hc, ok_bind]
  congr 1
  apply decide_eq_decide.2
  by_cases hm : rhs.toInt = iMin w
  · have h3 : (BitVec.ofInt w |rhs.toInt|).toInt = iMin w := by
      rw [hm, show |iMin w| = 2 ^ (w - 1) by unfold iMin; rw [abs_neg, abs_of_pos (by omega)],
        toInt_ofInt_sub hw0]
      · unfold iMin; omega
      · unfold Fits iMin iMax; omega
    rw [h3]
    exact ⟨fun _ => hm, fun _ => (toInt_fits _).1⟩
  · have h3 : iMax w < 2 * |loss.toInt| := by
      by_contra h; exact hn ⟨not_lt.1 h, hm⟩
    have f3 := abs_fits f hm
    rw [toInt_ofInt_of_fits hw0 f3]
    have h4 : (BitVec.ofInt w (|loss.toInt| + |loss.toInt|)).toInt =
        2 * |loss.toInt| - 2 ^ w := by
      rw [← two_mul, toInt_ofInt_sub hw0]
      unfold Fits iMin iMax at *; omega
    rw [h4]
    constructor
    · intro h; unfold Fits iMin iMax at *; have := abs_nonneg rhs.toInt; omega
    · intro h; exact absurd h hm

/-! ## Division of primitive integers -/

/-- The exact integer result, or an overflow error. -/
def checkedInt (w : Nat) (z : Int) : Res ArithErr (BitVec w) :=
  if Fits w z then .ok (BitVec.ofInt w z) else .err .overflow

theorem sub_tdiv_fits {w : Nat} {a b : Int} (hb : Fits w b) (hb0 : b ≠ 0) :
    Fits w (a.tmod b) := by
  have h := tmod_abs_lt a hb0
  have h1 := abs_lt.1 h
  unfold Fits iMin iMax at *
  rcases abs_cases b with ⟨e, _⟩ | ⟨e, _⟩ <;> rw [e] at h1
  · omega
  · omega

theorem tdiv_mul_between (a b : Int) :
    (0 ≤ a → 0 ≤ a.tdiv b * b ∧ a.tdiv b * b ≤ a) ∧
    (a ≤ 0 → a ≤ a.tdiv b * b ∧ a.tdiv b * b ≤ 0) := by
  have e : a.tdiv b * b = a - a.tmod b := by rw [← loss_eq]; ring
  have h1 := Int.natAbs_tmod a b
  have h2 := Nat.mod_le a.natAbs b.natAbs
  have h3 := fun h : 0 ≤ a => tmod_nonneg' b h
  have h4 := fun h : a ≤ 0 => tmod_nonpos' b h
  rw [e]
  generalize a.natAbs % b.natAbs = m at *
  omega

theorem tdiv_mul_fits {w : Nat} {a b : Int} (ha : Fits w a) : Fits w (a.tdiv b * b) := by
  have h0 : (0 : Int) < 2 ^ (w - 1) := by positivity
  have h := tdiv_mul_between a b
  unfold Fits iMin iMax at *
  generalize a.tdiv b * b = z at *
  omega

/-- The truncated quotient of two numbers of the type fits, except for `MIN / -1`. -/
theorem tdiv_fits {w : Nat} (hw : 3 < w) (a b : BitVec w)
    (hmin : ¬ (a.toInt = iMin w ∧ b.toInt = -1)) : Fits w (a.toInt.tdiv b.toInt) := by
  have hp : (8:Int) ≤ 2^(w-1) := by
    calc (8:Int) = 2^3 := by norm_num
      _ ≤ 2^(w-1) := pow_le_pow_right₀ (by norm_num) (by omega)
  have fa := toInt_fits a
  have hq : |a.toInt.tdiv b.toInt| * |b.toInt| ≤ |a.toInt| := by
    rw [Int.abs_eq_natAbs, Int.abs_eq_natAbs, Int.abs_eq_natAbs, Int.natAbs_tdiv]
    exact_mod_cast Nat.div_mul_le_self _ _
  by_cases h1 : b.toInt = -1
  · rw [h1, Int.tdiv_neg, Int.tdiv_one]
    have : a.toInt ≠ iMin w := fun h => hmin ⟨h, h1⟩
    unfold Fits iMin iMax at *
    omega
  · by_cases h2 : b.toInt = 1
    · rw [h2, Int.tdiv_one]; exact fa
    · by_cases h0 : b.toInt = 0
      · rw [h0, Int.tdiv_zero]; unfold Fits iMin iMax; omega
      · have h3 : 2 ≤ |b.toInt| := by
          rcases abs_cases b.toInt with ⟨e, _⟩ | ⟨e, _⟩ <;> rw [e] <;> omega
        have h4 : |a.toInt.tdiv b.toInt| * 2 ≤ |a.toInt| := by
          have := mul_le_mul_of_nonneg_left h3 (abs_nonneg (a.toInt.tdiv b.toInt))
          omega
        apply fits_of_abs
        have : |a.toInt| ≤ 2 ^ (w - 1) := by
          rw [abs_le]; unfold Fits iMin iMax at fa; omega
        omega

/-- With a remainder, the quotient moved by one in the direction of the sign fits. -/
theorem tdiv_step_fits {w : Nat} (hw : 3 < w) (a b : BitVec w) (hb : b.toInt ≠ 0)
    (hl : a.toInt.tmod b.toInt ≠ 0) :
    Fits w (a.toInt.tdiv b.toInt + a.toInt.sign * b.toInt.sign) := by
  have hp : (8:Int) ≤ 2^(w-1) := by
    calc (8:Int) = 2^3 := by norm_num
      _ ≤ 2^(w-1) := pow_le_pow_right₀ (by norm_num) (by omega)
  have fa := toInt_fits a
  have hs := tmod_eq_zero_sign hl hb
  have hq : |a.toInt.tdiv b.toInt| * |b.toInt| ≤ |a.toInt| := by
    rw [Int.abs_eq_natAbs, Int.abs_eq_natAbs, Int.abs_eq_natAbs, Int.natAbs_tdiv]
    exact_mod_cast Nat.div_mul_le_self _ _
  have hb2 : 2 ≤ |b.toInt| := by
    have := tmod_abs_lt a.toInt hb
    have := abs_pos.2 hl
    omega
  have hq2 : |a.toInt.tdiv b.toInt| * 2 ≤ 2 ^ (w - 1) := by
    have h5 := mul_le_mul_of_nonneg_left hb2 (abs_nonneg (a.toInt.tdiv b.toInt))
    have : |a.toInt| ≤ 2 ^ (w - 1) := by
      rw [abs_le]; unfold Fits iMin iMax at fa; omega
    omega
  apply fits_of_abs
  have := abs_add_le (a.toInt.tdiv b.toInt) (a.toInt.sign * b.toInt.sign)
  have h6 : |a.toInt.sign * b.toInt.sign| = 1 := by
    rcases hs with h | h <;> rw [h] <;> rfl
  omega

theorem intRdiv_exact {w : Nat} (hw : 3 < w) (cfg : Cfg) (a b : BitVec w) (mode : RoundMode)
    (hb : b.toInt ≠ 0) (hmin : ¬ (a.toInt = iMin w ∧ b.toInt = -1))
    (hl : a.toInt.tmod b.toInt = 0) :
    SInt.rdiv cfg a b mode = .ok (BitVec.ofInt w (a.toInt.tdiv b.toInt)) := by
  have hw0 : 0 < w := by omega
  have fa := toInt_fits a
  have fb := toInt_fits b
  have fq := tdiv_fits hw a b hmin
  unfold SInt.rdiv
  rw [if_neg hb]
  unfold SInt.div SInt.mul SInt.sub
  rw [if_neg hb, if_pos fq, ok_bind, toInt_ofInt_of_fits hw0 fq,
    SInt.arith_fits cfg (tdiv_mul_fits fa), ok_bind, toInt_ofInt_of_fits hw0 (tdiv_mul_fits fa),
    loss_eq, SInt.arith_fits cfg (sub_tdiv_fits fb hb), ok_bind,
    toInt_ofInt_of_fits hw0 (sub_tdiv_fits fb hb)]
  rw [if_neg (by simpa using hl)]

/-- `rdiv` of integers with a remainder, in terms of the outcome of the test. -/
theorem intRdiv_of_test {w : Nat} (hw : 3 < w) (cfg : Cfg) (a b : BitVec w) (mode : RoundMode)
    (hb : b.toInt ≠ 0) (hmin : ¬ (a.toInt = iMin w ∧ b.toInt = -1))
    (hl : a.toInt.tmod b.toInt ≠ 0) :
    SInt.rdiv cfg a b mode =
      (SInt.rdivTest cfg (BitVec.ofInt w (a.toInt.tmod b.toInt))
        (BitVec.ofInt w (a.toInt.sign * b.toInt.sign)) b mode).bind fun t =>
        .ok (BitVec.ofInt w (if t = true then a.toInt.tdiv b.toInt + a.toInt.sign * b.toInt.sign
          else a.toInt.tdiv b.toInt)) := by
  have hw0 : 0 < w := by omega
  have fa := toInt_fits a
  have fb := toInt_fits b
  have fq := tdiv_fits hw a b hmin
  have hsm := sign_mul_spec (ε := ArithErr) (w := w) (by omega) cfg a b
  have hlf := toInt_ofInt_of_fits hw0 (sub_tdiv_fits (a := a.toInt) fb hb)
  have hsum := tdiv_step_fits hw a b hb hl
  unfold SInt.rdiv
  rw [if_neg hb]
  unfold SInt.div SInt.mul SInt.sub
  rw [if_neg hb, if_pos fq, ok_bind, toInt_ofInt_of_fits hw0 fq,
    SInt.arith_fits cfg (tdiv_mul_fits fa), ok_bind, toInt_ofInt_of_fits hw0 (tdiv_mul_fits fa),
    loss_eq, SInt.arith_fits cfg (sub_tdiv_fits fb hb), ok_bind,
    toInt_ofInt_of_fits hw0 (sub_tdiv_fits fb hb), if_pos hl]
  unfold SInt.mul at hsm
  rw [hsm.1, ok_bind]
  show Res.bind _ _ = Res.bind _ _
  congr 1
  funext t
  cases t
  · rw [if_neg (by simp), if_neg (by simp)]
  · rw [if_pos rfl, if_pos rfl]
    unfold SInt.checkedAdd
    rw [toInt_ofInt_of_fits hw0 fq, hsm.2, SInt.checked_fits hsum, ofOption_some]

/-- Rounding integer division: exact for `Floor`/`Ceil` except `MIN / -1`; for `Nearest` as long
as twice the remainder and the absolute value of the divisor fit the type. -/
theorem intRdiv_spec {w : Nat} (hw : 3 < w) (cfg : Cfg) (a b : BitVec w) (mode : RoundMode)
    (hb : b.toInt ≠ 0) (hmin : ¬ (a.toInt = iMin w ∧ b.toInt = -1))
    (hn : mode = .nearest → a.toInt.tmod b.toInt ≠ 0 →
      2 * |a.toInt.tmod b.toInt| ≤ iMax w ∧ b.toInt ≠ iMin w) :
    SInt.rdiv cfg a b mode = .ok (BitVec.ofInt w (roundDiv mode a.toInt b.toInt)) ∧
      Fits w (roundDiv mode a.toInt b.toInt) := by
  have hw0 : 0 < w := by omega
  have fb := toInt_fits b
  have fq := tdiv_fits hw a b hmin
  by_cases hl : a.toInt.tmod b.toInt = 0
  · rw [intRdiv_exact hw cfg a b mode hb hmin hl, roundDiv_no_loss mode hb hl]
    exact ⟨rfl, fq⟩
  · have hs := tmod_eq_zero_sign hl hb
    have hsm := sign_mul_spec (ε := ArithErr) (w := w) (by omega) cfg a b
    have hlf := toInt_ofInt_of_fits hw0 (sub_tdiv_fits (a := a.toInt) fb hb)
    have hsum := tdiv_step_fits hw a b hb hl
    rw [intRdiv_of_test hw cfg a b mode hb hmin hl,
      rdivTest_spec hw0 cfg _ _ _ mode (by rw [hlf]; exact hl)
      (by rw [hsm.2]; exact hs) (by rw [hlf]; exact fun h => hn h hl), bind_ok', hlf, hsm.2]
    unfold roundDiv
    rw [loss_eq]
    by_cases ht : lossTest mode (a.toInt.tmod b.toInt) b.toInt (a.toInt.sign * b.toInt.sign)
    · rw [if_pos ht, decide_eq_true ht, if_pos rfl]
      exact ⟨rfl, hsum⟩
    · rw [if_neg ht, decide_eq_false ht, add_zero]
      exact ⟨rfl, fq⟩

/-- `MIN / -1` panics in every profile and mode. -/
theorem intRdiv_min {w : Nat} (cfg : Cfg) (a b : BitVec w) (mode : RoundMode)
    (ha : a.toInt = iMin w) (hb : b.toInt = -1) : SInt.rdiv cfg a b mode = .panic := by
  have h0 : (0 : Int) < 2 ^ (w - 1) := by positivity
  unfold SInt.rdiv SInt.div
  rw [hb, if_neg (by norm_num), if_neg (by norm_num), if_neg, fault_bind]
  rw [ha, Int.tdiv_neg, Int.tdiv_one]
  unfold Fits iMin iMax
  omega

theorem intRdiv_zero {w : Nat} (cfg : Cfg) (a b : BitVec w) (mode : RoundMode)
    (hb : b.toInt = 0) : SInt.rdiv cfg a b mode = .err .divisionByZero := by
  unfold SInt.rdiv
  rw [hb, if_pos rfl]

/-! ## Fixed-point multiplication and division -/

section

variable {L : Layout} {P : Nat}

/-- The fixed-point number with raw value `z`, or an overflow error. -/
def checkedFP (L : Layout) (P : Nat) (z : Int) : Res ArithErr (FP L P) :=
  if Fits L.bits z then .ok ⟨BitVec.ofInt L.bits z⟩ else .err .overflow

theorem checkedFP_exactOr (z : Int) :
    ExactOr ArithErr.overflow (checkedFP L P z) ((z : ℚ) / 10 ^ P) := by
  apply exactOr_of <;> intro h <;> simp [checkedFP, h]

theorem two_pow_half (L : Layout) : (2 : Int) ^ (2 * L.bits - 1) = 2 * (half L * half L) := by
  cases L <;> decide

theorem two_pow_half' (L : Layout) : (2 : Int) ^ (2 * L.bits - 2) = half L * half L := by
  cases L <;> decide

theorem abs_le_half (a : BitVec L.bits) : |a.toInt| ≤ half L := by
  have := toInt_fits a
  rw [fits_half] at this
  rw [abs_le]; omega

theorem abs_mul_le_half {a b : Int} (ha : |a| ≤ half L) (hb : |b| ≤ half L) :
    |a * b| < 2 ^ (2 * L.bits - 1) := by
  have h := half_pos L
  rw [two_pow_half, abs_mul]
  have := mul_le_mul ha hb (abs_nonneg b) (by omega)
  nlinarith

theorem half_lt (L : Layout) : half L < 2 ^ (2 * L.bits - 1) := by
  have h := half_pos L
  rw [two_pow_half]
  nlinarith

theorem abs_tdiv_mul_le (n d : Int) : |n.tdiv d * d| ≤ |n| := by
  rw [abs_mul, Int.abs_eq_natAbs, Int.abs_eq_natAbs, Int.abs_eq_natAbs, Int.natAbs_tdiv]
  exact_mod_cast Nat.div_mul_le_self _ _

theorem abs_tmod_le (n d : Int) : |n.tmod d| ≤ |n| := by
  rw [Int.abs_eq_natAbs, Int.abs_eq_natAbs, Int.natAbs_tmod]
  exact_mod_cast Nat.mod_le _ _

/-- The common tail of `rmul` and `rdiv`: quotient and remainder in the promotion type. -/
theorem prom_divmod (cfg : Cfg) (x y : (prom L).T) (hx : |(prom L).toInt x| < 2 ^ (2 * L.bits - 1))
    (hy : |(prom L).toInt y| ≤ half L) (hy0 : (prom L).toInt y ≠ 0) :
    ∃ q t l, (prom L).div cfg x y = .ok q ∧ (prom L).mul cfg q y = .ok t ∧
      (prom L).sub cfg x t = .ok l ∧
      (prom L).toInt q = ((prom L).toInt x).tdiv ((prom L).toInt y) ∧
      (prom L).toInt l = ((prom L).toInt x).tmod ((prom L).toInt y) := by
  have S := prom_sound L
  have hy' : |(prom L).toInt y| < 2 ^ (2 * L.bits - 1) := lt_of_le_of_lt hy (half_lt L)
  obtain ⟨q, hq, eq⟩ := S.div cfg x y hx hy' hy0
  have hq1 : |(prom L).toInt q| < 2 ^ (2 * L.bits - 1) := by
    rw [eq]; exact lt_of_le_of_lt (abs_tdiv_le _ _) hx
  obtain ⟨t, ht, et⟩ := S.mul cfg q y hq1 hy'
    (by rw [eq]; exact lt_of_le_of_lt (abs_tdiv_mul_le _ _) hx)
  rw [eq] at et
  obtain ⟨l, hl, el⟩ := S.sub cfg x t
    (by rw [et, loss_eq]; exact lt_of_le_of_lt (abs_tmod_le _ _) hx)
  rw [et, loss_eq] at el
  exact ⟨q, t, l, hq, ht, hl, eq, el⟩

theorem sign_mul' (a b : Int) : (a * b).sign = a.sign * b.sign := Int.sign_mul a b

theorem bits_gt (L : Layout) : 3 < L.bits := by have := bits_ge L; omega

theorem rmulTest_spec {cfg : Cfg} (hv : Valid cfg L P) (loss sign : BitVec L.bits) (n : Int)
    (mode : RoundMode) (hl : loss.toInt = n.tmod (10 ^ P)) (hs : sign.toInt = n.sign)
    (hn : mode = .nearest → Fits L.bits (n.tmod (10 ^ P) + n.tmod (10 ^ P))) :
    FP.rmulTest cfg P (BitVec.ofInt L.bits (10 ^ P)) loss sign mode =
      .ok (decide (lossTest mode (n.tmod (10 ^ P)) (10 ^ P) (n.sign * ((10 : Int) ^ P).sign))) := by
  have hw := bits_pos L
  have hcpos : (0 : Int) < 10 ^ P := by positivity
  have hcast := cast32_sign (s := sign) (by
    rw [hs]
    rcases lt_trichotomy n 0 with h | h | h <;>
      simp [Int.sign_eq_neg_one_of_neg, Int.sign_eq_one_of_pos, h])
  rw [Int.sign_eq_one_of_pos hcpos, mul_one]
  unfold FP.rmulTest FP.rmulUp FP.rmulDown
  rw [hcast, hs, hl]
  cases mode with
  | nearest =>
    rw [if_pos rfl]
    have hf2 := hn rfl
    have hadd : (SInt.add cfg loss loss : Res ArithErr _) =
        .ok (BitVec.ofInt L.bits (n.tmod (10 ^ P) + n.tmod (10 ^ P))) := by
      unfold SInt.add; rw [hl, SInt.arith_fits cfg hf2]
    simp only [hadd, ok_bind, coef_toInt hv, negCoef_spec hv, negCoef_toInt hv,
      toInt_ofInt_of_fits hw hf2]
    have hLT : lossTest .nearest (n.tmod (10 ^ P)) (10 ^ P) n.sign ↔
        10 ^ P ≤ 2 * |n.tmod (10 ^ P)| := by
      show |(10 : Int) ^ P| ≤ _ ↔ _
      rw [abs_of_pos hcpos]
    by_cases hn0 : 0 ≤ n
    · have hs0 : 0 ≤ n.sign := Int.sign_nonneg_iff.2 hn0
      have hl0 := tmod_nonneg' (10 ^ P) hn0
      have ha := abs_of_nonneg hl0
      rw [if_pos hs0, ok_bind]
      by_cases ht : (10 : Int) ^ P ≤ n.tmod (10 ^ P) + n.tmod (10 ^ P)
      · rw [decide_eq_true ht, if_pos rfl, decide_eq_true (hLT.2 (by omega))]
      · rw [decide_eq_false ht, if_neg (by simp), decide_eq_false (by omega),
          decide_eq_false (fun h => by have := hLT.1 h; omega)]
    · have hs0 : ¬ 0 ≤ n.sign := by rw [Int.sign_nonneg_iff]; exact hn0
      have hl0 := tmod_nonpos' (n := n) (10 ^ P) (by omega)
      have ha := abs_of_nonpos hl0
      rw [if_neg hs0, ok_bind, if_neg (by simp)]
      congr 1
      apply decide_eq_decide.2
      rw [hLT]
      omega
  | ceil =>
    rw [if_neg (by decide), ← Bool.decide_and]
    congr 1
    apply decide_eq_decide.2
    show (_ ∧ 1 = _) ↔ (_ ∧ _)
    rw [eq_comm (a := (1 : Int))]
  | floor =>
    rw [if_neg (by decide), ← Bool.decide_and]
    congr 1
    apply decide_eq_decide.2
    show (_ ∧ -1 = _) ↔ (_ ∧ _)
    rw [eq_comm (a := (-1 : Int))]

/-- With overflow checks the test panics when twice the remainder overflows. -/
theorem rmulTest_panic {cfg : Cfg} (hc : cfg.overflowChecks = true) (loss sign : BitVec L.bits)
    (c : BitVec L.bits) (h : ¬ Fits L.bits (loss.toInt + loss.toInt)) :
    FP.rmulTest cfg P c loss sign .nearest = .panic := by
  unfold FP.rmulTest FP.rmulUp FP.rmulDown SInt.add
  rw [if_pos rfl, SInt.arith_panic cfg h hc]
  split
  · rfl
  · rfl

/-- Only `FixedPoint<i128, U38>` has remainders that large. -/
theorem rmul_large {cfg : Cfg} (hv : Valid cfg L P) (n : Int)
    (h : ¬ Fits L.bits (n.tmod (10 ^ P) + n.tmod (10 ^ P))) : L = .i128 ∧ P = 38 := by
  by_contra hne
  have h1 := two_ten_pow_le hv hne
  have h2 := abs_lt.1 (tmod_abs_lt n (show (10 : Int) ^ P ≠ 0 by positivity))
  rw [abs_of_pos (show (0 : Int) < 10 ^ P by positivity)] at h2
  rw [fits_half] at h
  rw [rawMax_half] at h1
  omega

/-- Without overflow checks the wrapped comparison is right for positive products and wrong (it
truncates) for negative ones. -/
theorem rmulTest_wrap {cfg : Cfg} (hv : Valid cfg L P) (hc : cfg.overflowChecks = false)
    (loss sign : BitVec L.bits) (n : Int)
    (hl : loss.toInt = n.tmod (10 ^ P)) (hs : sign.toInt = n.sign)
    (h : ¬ Fits L.bits (n.tmod (10 ^ P) + n.tmod (10 ^ P))) :
    FP.rmulTest cfg P (BitVec.ofInt L.bits (10 ^ P)) loss sign .nearest =
      .ok (decide (0 ≤ n)) := by
  have hw := bits_pos L
  obtain ⟨rfl, rfl⟩ := rmul_large hv n h
  have hcast := cast32_sign (s := sign) (by
    rw [hs]
    rcases lt_trichotomy n 0 with h | h | h <;>
      simp [Int.sign_eq_neg_one_of_neg, Int.sign_eq_one_of_pos, h])
  have hadd : (SInt.add cfg loss loss : Res ArithErr _) =
      .ok (BitVec.ofInt Layout.i128.bits (n.tmod (10 ^ 38) + n.tmod (10 ^ 38))) := by
    unfold SInt.add; rw [hl, SInt.arith_wrap cfg hc]
  unfold FP.rmulTest FP.rmulUp FP.rmulDown
  rw [if_pos rfl, hcast, hs]
  simp only [hadd, ok_bind, coef_toInt hv, negCoef_spec hv, negCoef_toInt hv]
  have hb := tmod_abs_lt n (show (10 : Int) ^ 38 ≠ 0 by norm_num)
  have hh : half .i128 = 2 ^ 127 := rfl
  rw [fits_half, hh] at h
  by_cases hn0 : 0 ≤ n
  · have hl0 := tmod_nonneg' (10 ^ 38) hn0
    rw [abs_of_nonneg hl0, abs_of_pos (by norm_num)] at hb
    generalize n.tmod (10 ^ 38) = l at *
    have e : (BitVec.ofInt Layout.i128.bits (l + l)).toInt = l + l - 2 ^ Layout.i128.bits := by
      apply toInt_ofInt_sub hw
      rw [fits_half, hh]
      norm_num [Layout.bits] at *
      omega
    rw [if_pos (Int.sign_nonneg_iff.2 hn0), ok_bind, e, decide_eq_true hn0]
    have e1 : ¬ (10 : Int) ^ 38 ≤ l + l - 2 ^ Layout.i128.bits := by
      norm_num [Layout.bits] at *; omega
    have e2 : l + l - 2 ^ Layout.i128.bits ≤ -10 ^ 38 := by
      norm_num [Layout.bits] at *; omega
    rw [decide_eq_false e1, if_neg (by simp), decide_eq_true e2]
  · have hl0 := tmod_nonpos' (n := n) (10 ^ 38) (by omega)
    rw [abs_of_nonpos hl0, abs_of_pos (by norm_num)] at hb
    generalize n.tmod (10 ^ 38) = l at *
    have e : (BitVec.ofInt Layout.i128.bits (l + l)).toInt = l + l + 2 ^ Layout.i128.bits := by
      have hf : Fits Layout.i128.bits (l + l + 2 ^ Layout.i128.bits) := by
        rw [fits_half, hh]
        norm_num [Layout.bits] at *
        omega
      rw [← toInt_ofInt_of_fits hw hf, BitVec.toInt_ofInt, BitVec.toInt_ofInt]
      have : ((2 ^ Layout.i128.bits : Nat) : Int) = 2 ^ Layout.i128.bits := by push_cast; rfl
      rw [← this, Int.add_bmod_right]
    rw [if_neg (by rw [Int.sign_nonneg_iff]; exact hn0), ok_bind, if_neg (by simp), e,
      decide_eq_false hn0]
    have e2 : ¬ l + l + 2 ^ Layout.i128.bits ≤ -10 ^ 38 := by
      norm_num [Layout.bits] at *; omega
    rw [decide_eq_false e2]

/-- The truncated product does not fit: `Overflow`. -/
theorem rmul_overflow {cfg : Cfg} (hv : Valid cfg L P) (a b : FP L P) (mode : RoundMode)
    (hfq : ¬ Fits L.bits ((a.inner.toInt * b.inner.toInt).tdiv (10 ^ P))) :
    FP.rmul cfg a b mode = .err .overflow := by
  have S := prom_sound L
  have hw := bits_pos L
  have hc := coef_toInt hv
  have hcpos : (0 : Int) < 10 ^ P := by positivity
  have hcne : (10 : Int) ^ P ≠ 0 := hcpos.ne'
  set c := BitVec.ofInt L.bits (10 ^ P) with hcdef
  have hofc : (prom L).toInt ((prom L).ofL c) = 10 ^ P := by rw [S.ofL, hc]
  have hcle : |(prom L).toInt ((prom L).ofL c)| ≤ half L := by
    rw [S.ofL]; exact abs_le_half c
  obtain ⟨v, hvv, ev⟩ := S.mul cfg ((prom L).ofL a.inner) ((prom L).ofL b.inner)
    (by rw [S.ofL]; exact lt_of_le_of_lt (abs_le_half _) (half_lt L))
    (by rw [S.ofL]; exact lt_of_le_of_lt (abs_le_half _) (half_lt L))
    (by rw [S.ofL, S.ofL]; exact abs_mul_le_half (abs_le_half _) (abs_le_half _))
  rw [S.ofL, S.ofL] at ev
  obtain ⟨q, t, l, hq, ht, hl, eq, el⟩ := prom_divmod cfg v ((prom L).ofL c)
    (by rw [ev]; exact abs_mul_le_half (abs_le_half _) (abs_le_half _)) hcle
    (by rw [hofc]; exact hcne)
  rw [ev, hofc] at eq el
  unfold FP.rmul
  dsimp only
  rw [coef_spec hv, ok_bind, hvv, ok_bind, hq, ok_bind, ht, ok_bind, hl, ok_bind]
  set n := a.inner.toInt * b.inner.toInt with hnd
  rw [S.tryL_none q (by rw [eq]; exact hfq), ofOption_none, err_bind]

/-- The truncated product fits: the result in terms of the outcome of the rounding test. -/
theorem rmul_of_test {cfg : Cfg} (hv : Valid cfg L P) (a b : FP L P) (mode : RoundMode)
    (hfq : Fits L.bits ((a.inner.toInt * b.inner.toInt).tdiv (10 ^ P))) :
    FP.rmul cfg a b mode =
      (FP.rmulTest cfg P (BitVec.ofInt L.bits (10 ^ P))
        (BitVec.ofInt _ ((a.inner.toInt * b.inner.toInt).tmod (10 ^ P)))
        (BitVec.ofInt _ (a.inner.toInt * b.inner.toInt).sign) mode).bind fun t =>
        checkedFP L P (if t = true then (a.inner.toInt * b.inner.toInt).tdiv (10 ^ P) +
            (a.inner.toInt * b.inner.toInt).sign
          else (a.inner.toInt * b.inner.toInt).tdiv (10 ^ P)) := by
  have S := prom_sound L
  have hw := bits_pos L
  have hc := coef_toInt hv
  have hcpos : (0 : Int) < 10 ^ P := by positivity
  have hcne : (10 : Int) ^ P ≠ 0 := hcpos.ne'
  set c := BitVec.ofInt L.bits (10 ^ P) with hcdef
  have hofc : (prom L).toInt ((prom L).ofL c) = 10 ^ P := by rw [S.ofL, hc]
  have hcle : |(prom L).toInt ((prom L).ofL c)| ≤ half L := by
    rw [S.ofL]; exact abs_le_half c
  obtain ⟨v, hvv, ev⟩ := S.mul cfg ((prom L).ofL a.inner) ((prom L).ofL b.inner)
    (by rw [S.ofL]; exact lt_of_le_of_lt (abs_le_half _) (half_lt L))
    (by rw [S.ofL]; exact lt_of_le_of_lt (abs_le_half _) (half_lt L))
    (by rw [S.ofL, S.ofL]; exact abs_mul_le_half (abs_le_half _) (abs_le_half _))
  rw [S.ofL, S.ofL] at ev
  obtain ⟨q, t, l, hq, ht, hl, eq, el⟩ := prom_divmod cfg v ((prom L).ofL c)
    (by rw [ev]; exact abs_mul_le_half (abs_le_half _) (abs_le_half _)) hcle
    (by rw [hofc]; exact hcne)
  rw [ev, hofc] at eq el
  unfold FP.rmul
  dsimp only
  rw [coef_spec hv, ok_bind, hvv, ok_bind, hq, ok_bind, ht, ok_bind, hl, ok_bind]
  set n := a.inner.toInt * b.inner.toInt with hnd
  have hfl : Fits L.bits (n.tmod (10 ^ P)) := sub_tdiv_fits (ten_pow_fits hv) hcne
  rw [S.tryL_some q (by rw [eq]; exact hfq), ofOption_some, ok_bind,
    S.tryL_some l (by rw [el]; exact hfl), ofOption_some, unwrap_ok, ok_bind, eq, el]
  obtain ⟨hs1, hs2⟩ := sign_mul_spec (ε := ArithErr) (w := L.bits) (by have := bits_gt L; omega)
    cfg a.inner b.inner
  have hsn : a.inner.toInt.sign * b.inner.toInt.sign = n.sign := by rw [hnd, sign_mul']
  rw [hsn] at hs1 hs2
  rw [hs1, ok_bind]
  show Res.bind _ _ = Res.bind _ _
  congr 1
  funext t
  unfold checkedFP
  cases t
  · simp only [Bool.false_eq_true, ↓reduceIte, if_pos hfq]; rfl
  · rw [if_pos rfl, if_pos rfl]
    unfold SInt.checkedAdd SInt.checked
    rw [toInt_ofInt_of_fits hw hfq, hs2]
    by_cases hf : Fits L.bits (n.tdiv (10 ^ P) + n.sign)
    · rw [if_pos hf, if_pos hf, ofOption_some, ok_bind]; rfl
    · rw [if_neg hf, if_neg hf, ofOption_none, err_bind]

theorem sign_fits' (z : Int) : Fits L.bits z.sign :=
  SInt.sign_fits (by have := bits_gt L; omega) z

/-- `rmul` returns the rounded product or an overflow error, unless twice the remainder
overflows in `Nearest` mode. -/
theorem rmul_spec' {cfg : Cfg} (hv : Valid cfg L P) (a b : FP L P) (mode : RoundMode)
    (hn : mode = .nearest → Fits L.bits ((a.inner.toInt * b.inner.toInt).tdiv (10 ^ P)) →
      Fits L.bits (2 * (a.inner.toInt * b.inner.toInt).tmod (10 ^ P))) :
    FP.rmul cfg a b mode =
      checkedFP L P (roundDiv mode (a.inner.toInt * b.inner.toInt) (10 ^ P)) := by
  have hw := bits_pos L
  by_cases hfq : Fits L.bits ((a.inner.toInt * b.inner.toInt).tdiv (10 ^ P))
  swap
  · rw [rmul_overflow hv a b mode hfq]
    unfold checkedFP
    rw [if_neg (roundDiv_not_fits mode _ _ hfq)]
  rw [rmul_of_test hv a b mode hfq]
  have hcpos : (0 : Int) < 10 ^ P := by positivity
  generalize hnd : a.inner.toInt * b.inner.toInt = n at *
  have hfl : Fits L.bits (n.tmod (10 ^ P)) := sub_tdiv_fits (ten_pow_fits hv) hcpos.ne'
  rw [rmulTest_spec hv _ _ n mode (toInt_ofInt_of_fits hw hfl)
    (toInt_ofInt_of_fits hw (sign_fits' n)) (fun h => by have := hn h hfq; rwa [two_mul] at this),
    bind_ok']
  have hsc : n.sign * ((10 : Int) ^ P).sign = n.sign := by
    rw [Int.sign_eq_one_of_pos hcpos, mul_one]
  unfold roundDiv
  rw [loss_eq]
  congr 1
  by_cases ht : lossTest mode (n.tmod (10 ^ P)) (10 ^ P) (n.sign * ((10 : Int) ^ P).sign)
  · rw [decide_eq_true ht, if_pos rfl, if_pos ht, hsc]
  · rw [decide_eq_false ht, if_neg (by simp), if_neg ht, add_zero]

/-- `rmul` returns the rounded product or an overflow error. -/
theorem rmul_spec {cfg : Cfg} (hv : Valid cfg L P) (a b : FP L P) (mode : RoundMode)
    (hn : mode = .nearest →
      2 * |(a.inner.toInt * b.inner.toInt).tmod (10 ^ P)| ≤ rawMax L) :
    FP.rmul cfg a b mode =
      checkedFP L P (roundDiv mode (a.inner.toInt * b.inner.toInt) (10 ^ P)) := by
  refine rmul_spec' hv a b mode fun h _ => ?_
  have h2 := hn h
  have h3 := abs_le.1 (show |(a.inner.toInt * b.inner.toInt).tmod (10 ^ P)| ≤ _ from le_refl _)
  rw [fits_half]
  rw [rawMax_half] at h2
  omega

/-- The quotient does not fit: `Overflow`. -/
theorem rdiv_overflow {cfg : Cfg} (hv : Valid cfg L P) (a b : FP L P) (mode : RoundMode)
    (hb : b.inner.toInt ≠ 0)
    (hfq : ¬ Fits L.bits ((a.inner.toInt * 10 ^ P).tdiv b.inner.toInt)) :
    FP.rdiv cfg a b mode = .err .overflow := by
  have S := prom_sound L
  have hw := bits_pos L
  have hc := coef_toInt hv
  have hcpos : (0 : Int) < 10 ^ P := by positivity
  set c := BitVec.ofInt L.bits (10 ^ P) with hcdef
  have hofc : (prom L).toInt ((prom L).ofL c) = 10 ^ P := by rw [S.ofL, hc]
  obtain ⟨v, hvv, ev⟩ := S.mul cfg ((prom L).ofL a.inner) ((prom L).ofL c)
    (by rw [S.ofL]; exact lt_of_le_of_lt (abs_le_half _) (half_lt L))
    (by rw [S.ofL]; exact lt_of_le_of_lt (abs_le_half _) (half_lt L))
    (by rw [S.ofL, S.ofL]; exact abs_mul_le_half (abs_le_half _) (abs_le_half _))
  have hvb : |(prom L).toInt v| < 2 ^ (2 * L.bits - 1) := by
    rw [ev, S.ofL, S.ofL]; exact abs_mul_le_half (abs_le_half _) (abs_le_half _)
  rw [S.ofL, S.ofL, hc] at ev
  obtain ⟨q, t, l, hq, ht, hl, eq, el⟩ := prom_divmod cfg v ((prom L).ofL b.inner)
    hvb (by rw [S.ofL]; exact abs_le_half _) (by rw [S.ofL]; exact hb)
  rw [ev, S.ofL] at eq el
  unfold FP.rdiv
  rw [if_neg hb]
  dsimp only
  rw [coef_spec hv, ok_bind, hvv, ok_bind, hq, ok_bind, ht, ok_bind, hl, ok_bind]
  set n := a.inner.toInt * 10 ^ P with hnd
  rw [S.tryL_none q (by rw [eq]; exact hfq), ofOption_none, err_bind]

/-- The quotient fits: the result in terms of the outcome of the rounding test. -/
theorem rdiv_of_test {cfg : Cfg} (hv : Valid cfg L P) (a b : FP L P) (mode : RoundMode)
    (hb : b.inner.toInt ≠ 0)
    (hfq : Fits L.bits ((a.inner.toInt * 10 ^ P).tdiv b.inner.toInt)) :
    FP.rdiv cfg a b mode =
      if (a.inner.toInt * 10 ^ P).tmod b.inner.toInt = 0 then
        .ok ⟨BitVec.ofInt _ ((a.inner.toInt * 10 ^ P).tdiv b.inner.toInt)⟩
      else
        (SInt.rdivTest cfg (BitVec.ofInt _ ((a.inner.toInt * 10 ^ P).tmod b.inner.toInt))
          (BitVec.ofInt _ ((a.inner.toInt * 10 ^ P).sign * b.inner.toInt.sign)) b.inner
          mode).bind fun t =>
          checkedFP L P (if t = true then (a.inner.toInt * 10 ^ P).tdiv b.inner.toInt +
              (a.inner.toInt * 10 ^ P).sign * b.inner.toInt.sign
            else (a.inner.toInt * 10 ^ P).tdiv b.inner.toInt) := by
  have S := prom_sound L
  have hw := bits_pos L
  have hc := coef_toInt hv
  have hcpos : (0 : Int) < 10 ^ P := by positivity
  set c := BitVec.ofInt L.bits (10 ^ P) with hcdef
  have hofc : (prom L).toInt ((prom L).ofL c) = 10 ^ P := by rw [S.ofL, hc]
  obtain ⟨v, hvv, ev⟩ := S.mul cfg ((prom L).ofL a.inner) ((prom L).ofL c)
    (by rw [S.ofL]; exact lt_of_le_of_lt (abs_le_half _) (half_lt L))
    (by rw [S.ofL]; exact lt_of_le_of_lt (abs_le_half _) (half_lt L))
    (by rw [S.ofL, S.ofL]; exact abs_mul_le_half (abs_le_half _) (abs_le_half _))
  have hvb : |(prom L).toInt v| < 2 ^ (2 * L.bits - 1) := by
    rw [ev, S.ofL, S.ofL]; exact abs_mul_le_half (abs_le_half _) (abs_le_half _)
  rw [S.ofL, S.ofL, hc] at ev
  obtain ⟨q, t, l, hq, ht, hl, eq, el⟩ := prom_divmod cfg v ((prom L).ofL b.inner)
    hvb (by rw [S.ofL]; exact abs_le_half _) (by rw [S.ofL]; exact hb)
  rw [ev, S.ofL] at eq el
  unfold FP.rdiv
  rw [if_neg hb]
  dsimp only
  rw [coef_spec hv, ok_bind, hvv, ok_bind, hq, ok_bind, ht, ok_bind, hl, ok_bind]
  set n := a.inner.toInt * 10 ^ P with hnd
  have hfl : Fits L.bits (n.tmod b.inner.toInt) := sub_tdiv_fits (toInt_fits _) hb
  rw [S.tryL_some q (by rw [eq]; exact hfq), ofOption_some, ok_bind,
    S.tryL_some l (by rw [el]; exact hfl), ofOption_some, unwrap_ok, ok_bind, eq, el,
    toInt_ofInt_of_fits hw hfl]
  by_cases hl0 : n.tmod b.inner.toInt = 0
  · rw [if_neg (by simpa using hl0), if_pos hl0]; rfl
  rw [if_pos hl0, if_neg hl0]
  obtain ⟨hs1, hs2⟩ := sign_mul_spec (ε := ArithErr) (w := L.bits) (by have := bits_gt L; omega)
    cfg a.inner b.inner
  have hsn : a.inner.toInt.sign * b.inner.toInt.sign = n.sign * b.inner.toInt.sign := by
    rw [hnd, sign_mul', Int.sign_eq_one_of_pos hcpos, mul_one]
  rw [hsn] at hs1 hs2
  rw [hs1, ok_bind]
  show Res.bind _ _ = Res.bind _ _
  congr 1
  funext t
  unfold checkedFP
  cases t
  · simp only [Bool.false_eq_true, ↓reduceIte, if_pos hfq]; rfl
  · rw [if_pos rfl, if_pos rfl]
    unfold SInt.checkedAdd SInt.checked
    rw [toInt_ofInt_of_fits hw hfq, hs2]
    by_cases hf : Fits L.bits (n.tdiv b.inner.toInt + n.sign * b.inner.toInt.sign)
    · rw [if_pos hf, if_pos hf, ofOption_some, ok_bind]; rfl
    · rw [if_neg hf, if_neg hf, ofOption_none, err_bind]

/-- `rdiv` returns the rounded quotient or an overflow error. -/
theorem rdiv_spec {cfg : Cfg} (hv : Valid cfg L P) (a b : FP L P) (mode : RoundMode)
    (hb : b.inner.toInt ≠ 0)
    (hn : mode = .nearest → (a.inner.toInt * 10 ^ P).tmod b.inner.toInt ≠ 0 →
      Fits L.bits ((a.inner.toInt * 10 ^ P).tdiv b.inner.toInt) →
      2 * |(a.inner.toInt * 10 ^ P).tmod b.inner.toInt| ≤ rawMax L ∧
        b.inner.toInt ≠ rawMin L) :
    FP.rdiv cfg a b mode =
      checkedFP L P (roundDiv mode (a.inner.toInt * 10 ^ P) b.inner.toInt) := by
  have hw := bits_pos L
  by_cases hfq : Fits L.bits ((a.inner.toInt * 10 ^ P).tdiv b.inner.toInt)
  swap
  · rw [rdiv_overflow hv a b mode hb hfq]
    unfold checkedFP
    rw [if_neg (roundDiv_not_fits mode _ _ hfq)]
  rw [rdiv_of_test hv a b mode hb hfq]
  have hcpos : (0 : Int) < 10 ^ P := by positivity
  set n := a.inner.toInt * 10 ^ P with hnd
  by_cases hl0 : n.tmod b.inner.toInt = 0
  · rw [if_pos hl0, roundDiv_no_loss mode hb hl0]
    unfold checkedFP
    rw [if_pos hfq]
  rw [if_neg hl0]
  have hfl : Fits L.bits (n.tmod b.inner.toInt) := sub_tdiv_fits (toInt_fits _) hb
  have hlt := toInt_ofInt_of_fits hw hfl
  have hs2 : (BitVec.ofInt L.bits (n.sign * b.inner.toInt.sign)).toInt =
      n.sign * b.inner.toInt.sign :=
    toInt_ofInt_of_fits hw (unit_fits (by have := bits_gt L; omega) (sign_mul_cases _ _))
  rw [rdivTest_spec hw cfg _ _ _ mode (by rw [hlt]; exact hl0)
    (by rw [hs2]; exact tmod_eq_zero_sign hl0 hb)
    (by rw [hlt]; exact fun h => hn h hl0 hfq), bind_ok', hlt, hs2]
  unfold roundDiv
  rw [loss_eq]
  congr 1
  by_cases ht : lossTest mode (n.tmod b.inner.toInt) b.inner.toInt (n.sign * b.inner.toInt.sign)
  · rw [decide_eq_true ht, if_pos rfl, if_pos ht]
  · rw [decide_eq_false ht, if_neg (by simp), if_neg ht, add_zero]

end

end Fixnum
