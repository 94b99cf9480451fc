import Verif.Spec
import Mathlib.Algebra.Order.Floor.Semiring

/-! # Helper lemmas about the specification vocabulary -/

namespace Fixnum

open Res

namespace Spec

variable {L : Layout} {P : Nat} {ε : Type}

theorem bits_ge (L : Layout) : 16 ≤ L.bits := by cases L <;> simp [Layout.bits]

theorem bits_pos (L : Layout) : 0 < L.bits := by have := bits_ge L; omega

theorem ten_pow_pos (P : Nat) : (0 : ℚ) < 10 ^ P := by positivity

theorem ten_pow_ne (P : Nat) : (10 : ℚ) ^ P ≠ 0 := (ten_pow_pos P).ne'

theorem fits_iff (L : Layout) (z : Int) : Fits L.bits z ↔ rawMin L ≤ z ∧ z ≤ rawMax L := Iff.rfl

/-- `2^(bits-1)`, so that the range of the layout is `-half ≤ z ≤ half - 1`. -/
def half (L : Layout) : Int := 2 ^ (L.bits - 1)

theorem half_pos (L : Layout) : 32768 ≤ half L := by cases L <;> decide

theorem fits_half (L : Layout) (z : Int) : Fits L.bits z ↔ -half L ≤ z ∧ z ≤ half L - 1 := Iff.rfl

theorem rawMax_half (L : Layout) : rawMax L = half L - 1 := rfl
theorem rawMin_half (L : Layout) : rawMin L = -half L := rfl

theorem value_ofInt {z : Int} (h : Fits L.bits z) :
    value (⟨BitVec.ofInt L.bits z⟩ : FP L P) = (z : ℚ) / 10 ^ P := by
  unfold value
  rw [toInt_ofInt_of_fits (bits_pos L) h]

/-- For evaluating concrete values. -/
theorem value_eq (x : FP L P) (z : Int) (h : x.inner.toInt = z) : value x = (z : ℚ) / 10 ^ P := by
  unfold value; rw [h]

theorem value_inj {x y : FP L P} (h : value x = value y) : x = y := by
  unfold value at h
  have h1 := ten_pow_ne P
  rw [div_left_inj' h1] at h
  have : x.inner.toInt = y.inner.toInt := by exact_mod_cast h
  exact FP.ext (toInt_inj' this)

theorem representable_iff (z : Int) :
    Representable L P ((z : ℚ) / 10 ^ P) ↔ Fits L.bits z := by
  constructor
  · rintro ⟨c, hc⟩
    unfold value at hc
    rw [div_left_inj' (ten_pow_ne P)] at hc
    have : c.inner.toInt = z := by exact_mod_cast hc
    rw [← this]; exact toInt_fits _
  · intro h
    exact ⟨_, value_ofInt h⟩

/-- How `ExactOr` is established: the result is the in-range raw integer or the error. -/
theorem exactOr_of {e : ε} {r : Res ε (FP L P)} {z : Int}
    (h1 : Fits L.bits z → r = .ok ⟨BitVec.ofInt L.bits z⟩)
    (h2 : ¬ Fits L.bits z → r = .err e) : ExactOr e r ((z : ℚ) / 10 ^ P) := by
  constructor
  · intro h
    rw [representable_iff] at h
    exact ⟨_, h1 h, value_ofInt h⟩
  · intro h
    rw [representable_iff] at h
    exact h2 h

/-- Two results that are both exact or the same error for the same number are equal. -/
theorem ExactOr.unique {e : ε} {r s : Res ε (FP L P)} {q : ℚ} (h1 : ExactOr e r q)
    (h2 : ExactOr e s q) : r = s := by
  by_cases h : Representable L P q
  · obtain ⟨c, hc, ec⟩ := h1.1 h
    obtain ⟨d, hd, ed⟩ := h2.1 h
    rw [hc, hd, value_inj (ec.trans ed.symm)]
  · rw [h1.2 h, h2.2 h]

theorem ExactOr.ok_iff {e : ε} {r : Res ε (FP L P)} {q : ℚ} (h : ExactOr e r q) (c : FP L P) :
    r = .ok c ↔ value c = q := by
  constructor
  · intro hr
    by_cases hq : Representable L P q
    · obtain ⟨d, hd, ed⟩ := h.1 hq
      rw [hd] at hr
      cases hr
      exact ed
    · rw [h.2 hq] at hr; cases hr
  · intro hc
    obtain ⟨d, hd, ed⟩ := h.1 ⟨c, hc⟩
    rw [hd, value_inj (ed.trans hc.symm)]

theorem ExactOr.err_iff {e : ε} {r : Res ε (FP L P)} {q : ℚ} (h : ExactOr e r q) :
    (∃ e', r = .err e') ↔ ¬ Representable L P q := by
  constructor
  · rintro ⟨e', he⟩ hq
    obtain ⟨d, hd, _⟩ := h.1 hq
    rw [hd] at he; cases he
  · intro hq; exact ⟨e, h.2 hq⟩

theorem ExactOr.returns {e : ε} {r : Res ε (FP L P)} {q : ℚ} (h : ExactOr e r q) : r.Returns := by
  by_cases hq : Representable L P q
  · obtain ⟨d, hd, _⟩ := h.1 hq
    rw [hd]; trivial
  · rw [h.2 hq]; trivial

/-! ## Rounding -/

/-- Rounding `q + f` for an integer `q` and a fraction `|f| < 1` of the same sign. -/
theorem round_split (mode : RoundMode) (q : Int) (f : ℚ) (hf1 : -1 < f) (hf2 : f < 1)
    (hp : 0 < f → 0 ≤ q) (hn : f < 0 → q ≤ 0) :
    round mode (q + f) = match mode with
      | .floor => if f < 0 then q - 1 else q
      | .ceil => if 0 < f then q + 1 else q
      | .nearest => if 1 / 2 ≤ f then q + 1 else if f ≤ -1 / 2 then q - 1 else q := by
  cases mode with
  | floor =>
    simp only [round]
    split
    · rw [Int.floor_eq_iff]; push_cast; constructor <;> linarith
    · rw [Int.floor_eq_iff]; constructor <;> linarith
  | ceil =>
    simp only [round]
    split
    · rw [Int.ceil_eq_iff]; push_cast; constructor <;> linarith
    · rw [Int.ceil_eq_iff]; constructor <;> linarith
  | nearest =>
    simp only [round, nearest]
    split
    · rename_i h0
      rw [Int.floor_eq_iff]
      split
      · push_cast; constructor <;> linarith
      · split
        · -- f ≤ -1/2 and 0 ≤ q + f is impossible
          exfalso
          have hq : (q : ℚ) ≤ 0 := by exact_mod_cast hn (by linarith)
          linarith
        · constructor <;> linarith
    · rename_i h0
      rw [Int.ceil_eq_iff]
      split
      · exfalso
        have hq : (0 : ℚ) ≤ q := by exact_mod_cast hp (by linarith)
        linarith
      · split
        · push_cast; constructor <;> linarith
        · constructor <;> linarith

/-- The integer-level rounding test used throughout the crate. -/
def lossTest (mode : RoundMode) (l d s : Int) : Prop :=
  match mode with
  | .nearest => |d| ≤ 2 * |l|
  | .ceil => l ≠ 0 ∧ s = 1
  | .floor => l ≠ 0 ∧ s = -1

instance (mode : RoundMode) (l d s : Int) : Decidable (lossTest mode l d s) := by
  unfold lossTest; cases mode <;> infer_instance

/-- Truncated quotient plus a signed one. -/
def roundDiv (mode : RoundMode) (n d : Int) : Int :=
  n.tdiv d + if lossTest mode (n - n.tdiv d * d) d (n.sign * d.sign) then n.sign * d.sign else 0

theorem loss_eq (n d : Int) : n - n.tdiv d * d = n.tmod d := by
  have := Int.tmod_add_mul_tdiv n d
  linarith [mul_comm d (n.tdiv d)]

theorem tmod_abs_lt (n : Int) {d : Int} (hd : d ≠ 0) : |n.tmod d| < |d| := by
  have h := Int.natAbs_tmod n d
  rw [Int.abs_eq_natAbs, Int.abs_eq_natAbs, h]
  have : 0 < d.natAbs := Int.natAbs_pos.2 hd
  exact_mod_cast Nat.mod_lt _ this

theorem tmod_nonneg' {n : Int} (d : Int) (h : 0 ≤ n) : 0 ≤ n.tmod d := Int.tmod_nonneg d h

theorem tmod_nonpos' {n : Int} (d : Int) (h : n ≤ 0) : n.tmod d ≤ 0 := by
  have := Int.tmod_nonneg d (show 0 ≤ -n by omega)
  rw [Int.neg_tmod] at this
  omega

/-- The bridge: rounding the rational `n / d` is the truncated quotient corrected by the test. -/
theorem round_div (mode : RoundMode) (n : Int) {d : Int} (hd : d ≠ 0) :
    round mode ((n : ℚ) / d) = roundDiv mode n d := by
  have hdq : (d : ℚ) ≠ 0 := by exact_mod_cast hd
  unfold roundDiv
  rw [loss_eq]
  set q := n.tdiv d with hq
  set l := n.tmod d with hl
  have hnd : n = q * d + l := by
    have := Int.tmod_add_mul_tdiv n d
    rw [← hq, ← hl] at this
    linarith [mul_comm d q]
  have hlt : |l| < |d| := tmod_abs_lt n hd
  have hsplit : (n : ℚ) / d = q + (l : ℚ) / d := by
    rw [hnd]; push_cast; field_simp
  have hltq : |(l : ℚ) / d| < 1 := by
    rw [abs_div, div_lt_one (by positivity)]
    exact_mod_cast hlt
  obtain ⟨hf1, hf2⟩ := abs_lt.1 hltq
  -- sign bookkeeping
  have hsgn : (0 < (l : ℚ) / d ↔ l ≠ 0 ∧ n.sign * d.sign = 1) ∧
      ((l : ℚ) / d < 0 ↔ l ≠ 0 ∧ n.sign * d.sign = -1) ∧
      (0 < (l : ℚ) / d → 0 ≤ q) ∧ ((l : ℚ) / d < 0 → q ≤ 0) := by
    rcases lt_trichotomy n 0 with hn | hn | hn
    · have hl0 : l ≤ 0 := tmod_nonpos' d hn.le
      rcases lt_or_gt_of_ne hd with hd0 | hd0
      · have hq0 : 0 ≤ q := by
          have h := Int.tdiv_nonneg (a := -n) (b := -d) (by omega) (by omega)
          rwa [Int.neg_tdiv, Int.tdiv_neg, neg_neg] at h
        rw [Int.sign_eq_neg_one_of_neg hn, Int.sign_eq_neg_one_of_neg hd0]
        have hdq' : (d : ℚ) < 0 := by exact_mod_cast hd0
        have hlq : (l : ℚ) ≤ 0 := by exact_mod_cast hl0
        refine ⟨⟨fun h => ⟨fun h0 => ?_, by norm_num⟩, fun h => ?_⟩, ⟨fun h => ?_, fun h => ?_⟩,
          fun _ => hq0, fun h => ?_⟩
        · rw [h0] at h; simp at h
        · exact div_pos_of_neg_of_neg (by exact_mod_cast lt_of_le_of_ne hl0 h.1) hdq'
        · exact absurd h (not_lt.2 (div_nonneg_of_nonpos hlq hdq'.le))
        · norm_num at h
        · exact absurd h (not_lt.2 (div_nonneg_of_nonpos hlq hdq'.le))
      · have hq0 : q ≤ 0 := by
          have h := Int.tdiv_nonneg (a := -n) (b := d) (by omega) (by omega)
          rw [Int.neg_tdiv] at h; omega
        rw [Int.sign_eq_neg_one_of_neg hn, Int.sign_eq_one_of_pos hd0]
        have hdq' : (0 : ℚ) < d := by exact_mod_cast hd0
        have hlq : (l : ℚ) ≤ 0 := by exact_mod_cast hl0
        refine ⟨⟨fun h => ?_, fun h => ?_⟩, ⟨fun h => ⟨fun h0 => ?_, by norm_num⟩, fun h => ?_⟩,
          fun h => ?_, fun _ => hq0⟩
        · exact absurd h (not_lt.2 (div_nonpos_of_nonpos_of_nonneg hlq hdq'.le))
        · norm_num at h
        · rw [h0] at h; simp at h
        · exact div_neg_of_neg_of_pos (by exact_mod_cast lt_of_le_of_ne hl0 h.1) hdq'
        · exact absurd h (not_lt.2 (div_nonpos_of_nonpos_of_nonneg hlq hdq'.le))
    · subst hn
      have hl0 : l = 0 := by rw [hl, Int.zero_tmod]
      have hq0 : q = 0 := by rw [hq, Int.zero_tdiv]
      rw [hl0, hq0]; simp
    · have hl0 : 0 ≤ l := tmod_nonneg' d hn.le
      rcases lt_or_gt_of_ne hd with hd0 | hd0
      · have hq0 : q ≤ 0 := by
          have h := Int.tdiv_nonneg (a := n) (b := -d) (by omega) (by omega)
          rw [Int.tdiv_neg] at h; omega
        rw [Int.sign_eq_one_of_pos hn, Int.sign_eq_neg_one_of_neg hd0]
        have hdq' : (d : ℚ) < 0 := by exact_mod_cast hd0
        have hlq : (0 : ℚ) ≤ l := by exact_mod_cast hl0
        refine ⟨⟨fun h => ?_, fun h => ?_⟩, ⟨fun h => ⟨fun h0 => ?_, by norm_num⟩, fun h => ?_⟩,
          fun h => ?_, fun _ => hq0⟩
        · exact absurd h (not_lt.2 (div_nonpos_of_nonneg_of_nonpos hlq hdq'.le))
        · norm_num at h
        · rw [h0] at h; simp at h
        · exact div_neg_of_pos_of_neg (by exact_mod_cast lt_of_le_of_ne hl0 (Ne.symm h.1)) hdq'
        · exact absurd h (not_lt.2 (div_nonpos_of_nonneg_of_nonpos hlq hdq'.le))
      · have hq0 : 0 ≤ q := Int.tdiv_nonneg hn.le hd0.le
        rw [Int.sign_eq_one_of_pos hn, Int.sign_eq_one_of_pos hd0]
        have hdq' : (0 : ℚ) < d := by exact_mod_cast hd0
        have hlq : (0 : ℚ) ≤ l := by exact_mod_cast hl0
        refine ⟨⟨fun h => ⟨fun h0 => ?_, by norm_num⟩, fun h => ?_⟩, ⟨fun h => ?_, fun h => ?_⟩,
          fun _ => hq0, fun h => ?_⟩
        · rw [h0] at h; simp at h
        · exact div_pos (by exact_mod_cast lt_of_le_of_ne hl0 (Ne.symm h.1)) hdq'
        · exact absurd h (not_lt.2 (div_nonneg hlq hdq'.le))
        · norm_num at h
        · exact absurd h (not_lt.2 (div_nonneg hlq hdq'.le))
  obtain ⟨s1, s2, s3, s4⟩ := hsgn
  rw [hsplit, round_split mode q _ hf1 hf2 s3 s4]
  cases mode with
  | floor =>
    have ht : lossTest .floor l d (n.sign * d.sign) ↔ l ≠ 0 ∧ n.sign * d.sign = -1 := Iff.rfl
    by_cases h : (l : ℚ) / d < 0
    · have h' := s2.1 h
      rw [if_pos h, if_pos (ht.2 h'), h'.2]; ring
    · rw [if_neg h, if_neg (fun h' => h (s2.2 (ht.1 h')))]; ring
  | ceil =>
    have ht : lossTest .ceil l d (n.sign * d.sign) ↔ l ≠ 0 ∧ n.sign * d.sign = 1 := Iff.rfl
    by_cases h : 0 < (l : ℚ) / d
    · have h' := s1.1 h
      rw [if_pos h, if_pos (ht.2 h'), h'.2]
    · rw [if_neg h, if_neg (fun h' => h (s1.2 (ht.1 h')))]; ring
  | nearest =>
    have habs : lossTest .nearest l d (n.sign * d.sign) ↔ 1 / 2 ≤ |(l : ℚ) / d| := by
      change |d| ≤ 2 * |l| ↔ _
      have hd' : (0 : ℚ) < |(d : ℚ)| := abs_pos.2 hdq
      rw [abs_div, le_div_iff₀ hd']
      constructor
      · intro h
        have : (|(d : ℚ)|) ≤ 2 * |(l : ℚ)| := by exact_mod_cast h
        linarith
      · intro h
        have : (|(d : ℚ)|) ≤ 2 * |(l : ℚ)| := by linarith
        exact_mod_cast this
    by_cases h : 1 / 2 ≤ (l : ℚ) / d
    · have h' := s1.1 (by linarith)
      rw [if_pos h, if_pos (habs.2 (le_trans h (le_abs_self _))), h'.2]
    · by_cases h2 : (l : ℚ) / d ≤ -1 / 2
      · have h' := s2.1 (by linarith)
        rw [if_neg h, if_pos h2, if_pos (habs.2 (by
          have := neg_abs_le ((l : ℚ) / d); linarith)), h'.2]
        ring
      · have hno : ¬ lossTest .nearest l d (n.sign * d.sign) := by
          intro hc
          have := habs.1 hc
          rcases abs_choice ((l : ℚ) / d) with he | he
          · rw [he] at this; exact h this
          · rw [he] at this; exact h2 (by linarith)
        rw [if_neg h, if_neg h2, if_neg hno]
        ring

/-! ## What the rounding functions mean -/

theorem round_floor_spec (q : ℚ) : (round .floor q : ℚ) ≤ q ∧ q < round .floor q + 1 :=
  ⟨Int.floor_le q, Int.lt_floor_add_one q⟩

theorem round_ceil_spec (q : ℚ) : (round .ceil q : ℚ) - 1 < q ∧ q ≤ round .ceil q :=
  ⟨by have := Int.ceil_lt_add_one q; simp only [round]; linarith, Int.le_ceil q⟩

theorem round_nearest_spec (q : ℚ) : |q - round .nearest q| ≤ 1 / 2 := by
  simp only [round, nearest]
  rw [abs_le]
  split
  · have h1 := Int.floor_le (q + 1 / 2)
    have h2 := Int.lt_floor_add_one (q + 1 / 2)
    constructor <;> linarith
  · have h1 := Int.le_ceil (q - 1 / 2)
    have h2 := Int.ceil_lt_add_one (q - 1 / 2)
    constructor <;> linarith

/-- A half is rounded away from zero. -/
theorem round_nearest_half (n : Int) :
    round .nearest ((n : ℚ) + 1 / 2) = if 0 ≤ n then n + 1 else n := by
  simp only [round, nearest]
  by_cases h : 0 ≤ n
  · have h' : (0 : ℚ) ≤ n := by exact_mod_cast h
    rw [if_pos (by linarith), if_pos h, Int.floor_eq_iff]
    push_cast; constructor <;> linarith
  · have h' : (n : ℚ) ≤ -1 := by exact_mod_cast (show n ≤ -1 by omega)
    rw [if_neg (by linarith), if_neg h, Int.ceil_eq_iff]
    constructor <;> linarith

theorem round_int (mode : RoundMode) (n : Int) : round mode (n : ℚ) = n := by
  have := round_split mode n 0 (by norm_num) (by norm_num) (by norm_num) (by norm_num)
  rw [add_zero] at this
  rw [this]
  cases mode <;> norm_num

theorem round_mono (mode : RoundMode) {q r : ℚ} (h : q ≤ r) : round mode q ≤ round mode r := by
  cases mode
  · exact Int.ceil_le_ceil h
  · simp only [round, nearest]
    split <;> rename_i h1
    · rw [if_pos (le_trans h1 h)]
      exact Int.floor_le_floor (by linarith)
    · split <;> rename_i h2
      · have h3 : ⌈q - 1 / 2⌉ ≤ 0 := Int.ceil_le.2 (by push_cast; linarith)
        have h4 : 0 ≤ ⌊r + 1 / 2⌋ := Int.floor_nonneg.2 (by linarith)
        omega
      · exact Int.ceil_le_ceil (by linarith)
  · exact Int.floor_le_floor h

theorem round_bracket (q : ℚ) : round .floor q ≤ round .nearest q ∧
    round .nearest q ≤ round .ceil q ∧ round .ceil q ≤ round .floor q + 1 := by
  refine ⟨?_, ?_, ?_⟩
  · simp only [round, nearest]
    split
    · exact Int.floor_le_floor (by linarith)
    · have h1 := Int.floor_le q
      have h2 := Int.le_ceil (q - 1 / 2)
      have : ((⌊q⌋ : Int) : ℚ) < ⌈q - 1 / 2⌉ + 1 := by linarith
      have : (⌊q⌋ : Int) < ⌈q - 1 / 2⌉ + 1 := by exact_mod_cast this
      omega
  · simp only [round, nearest]
    split
    · have h1 := Int.le_ceil q
      have h2 := Int.floor_le (q + 1 / 2)
      have : ((⌊q + 1 / 2⌋ : Int) : ℚ) < ⌈q⌉ + 1 := by linarith
      have : (⌊q + 1 / 2⌋ : Int) < ⌈q⌉ + 1 := by exact_mod_cast this
      omega
    · exact Int.ceil_le_ceil (by linarith)
  · exact Int.ceil_le_floor_add_one q

theorem round_floor_eq_ceil_iff (q : ℚ) : round .floor q = round .ceil q ↔ ∃ n : Int, q = n := by
  constructor
  · intro h
    refine ⟨⌊q⌋, ?_⟩
    have h1 := Int.floor_le q
    have h2 := Int.le_ceil q
    simp only [round] at h
    rw [← h] at h2
    linarith
  · rintro ⟨n, rfl⟩
    rw [round_int, round_int]

/-- The mode that does the same on the other side of zero. -/
def flip : RoundMode → RoundMode
  | .floor => .ceil
  | .ceil => .floor
  | .nearest => .nearest

theorem round_neg (mode : RoundMode) (q : ℚ) : round mode (-q) = -round (flip mode) q := by
  cases mode
  · simp only [round, flip, Int.ceil_neg]
  · simp only [round, nearest, flip]
    rcases lt_trichotomy q 0 with h | h | h
    · rw [if_pos (by linarith), if_neg (by linarith), ← Int.floor_neg]
      congr 1; ring
    · subst h; norm_num
    · rw [if_neg (by linarith), if_pos (by linarith), ← Int.ceil_neg]
      congr 1; ring
  · simp only [round, flip, Int.floor_neg]

/-! ### `roundTo` -/

theorem roundTo_div (mode : RoundMode) (q : ℚ) {n : Int} {d : Int} (hd : d ≠ 0)
    (h : q * 10 ^ P = (n : ℚ) / d) : roundTo P mode q = (roundDiv mode n d : ℚ) / 10 ^ P := by
  unfold roundTo
  rw [h, round_div mode n hd]

theorem roundTo_value (mode : RoundMode) (x : FP L P) : roundTo P mode (value x) = value x := by
  unfold roundTo value
  rw [div_mul_cancel₀ _ (ten_pow_ne P), round_int]

/-- `roundTo .floor` is the greatest multiple of `10^-P` not above `q`. -/
theorem roundTo_floor_spec (P : Nat) (q : ℚ) :
    roundTo P .floor q ≤ q ∧ ∀ n : Int, (n : ℚ) / 10 ^ P ≤ q → (n : ℚ) / 10 ^ P ≤ roundTo P .floor q := by
  have hp := ten_pow_pos P
  unfold roundTo
  refine ⟨?_, fun n hn => ?_⟩
  · rw [div_le_iff₀ hp]; exact Int.floor_le _
  · rw [div_le_div_iff_of_pos_right hp]
    rw [div_le_iff₀ hp] at hn
    exact_mod_cast Int.le_floor.2 hn

/-- `roundTo .ceil` is the least multiple of `10^-P` not below `q`. -/
theorem roundTo_ceil_spec (P : Nat) (q : ℚ) :
    q ≤ roundTo P .ceil q ∧ ∀ n : Int, q ≤ (n : ℚ) / 10 ^ P → roundTo P .ceil q ≤ (n : ℚ) / 10 ^ P := by
  have hp := ten_pow_pos P
  unfold roundTo
  refine ⟨?_, fun n hn => ?_⟩
  · rw [le_div_iff₀ hp]; exact Int.le_ceil _
  · rw [div_le_div_iff_of_pos_right hp]
    rw [le_div_iff₀ hp] at hn
    exact_mod_cast Int.ceil_le.2 hn

/-- `roundTo .nearest` is a closest multiple of `10^-P`; among two equally close ones it is the one
farther from zero. -/
theorem roundTo_nearest_spec (P : Nat) (q : ℚ) (n : Int) :
    |q - roundTo P .nearest q| ≤ |q - (n : ℚ) / 10 ^ P| ∧
    (|q - roundTo P .nearest q| = |q - (n : ℚ) / 10 ^ P| →
      |(n : ℚ) / 10 ^ P| ≤ |roundTo P .nearest q|) := by
  have hp := ten_pow_pos P
  have hpn := ten_pow_ne P
  set t := q * 10 ^ P with ht
  have key : ∀ z : ℚ, |q - z / 10 ^ P| = |t - z| / 10 ^ P := by
    intro z
    rw [ht, ← abs_of_pos hp, ← abs_div, abs_of_pos hp, sub_div, mul_div_assoc, div_self hpn, mul_one]
  have hr := round_nearest_spec t
  unfold roundTo
  rw [← ht, key, key, div_le_div_iff_of_pos_right hp, div_left_inj' hpn, abs_div, abs_div,
    abs_of_pos hp, div_le_div_iff_of_pos_right hp]
  set m := round .nearest t with hm
  -- the two candidates differ by at least one unless they are equal
  by_cases hnm : n = m
  · rw [hnm]; exact ⟨le_refl _, fun _ => le_refl _⟩
  have h1 : (1 : ℚ) ≤ |(n : ℚ) - m| := by
    have : 1 ≤ |n - m| := Int.one_le_abs (by omega)
    exact_mod_cast this
  have h2 : |(n : ℚ) - m| ≤ |t - n| + |t - m| := by
    have := abs_sub_le (n : ℚ) t m
    rw [abs_sub_comm (n : ℚ) t] at this
    exact this
  refine ⟨by linarith, fun he => ?_⟩
  -- a tie: `t = m ∓ 1/2`
  have h3 : |t - m| = 1 / 2 := by linarith
  have h4 : |t - n| = 1 / 2 := by linarith
  rcases abs_cases (t - (m : ℚ)) with ⟨e1, c1⟩ | ⟨e1, c1⟩ <;>
    rcases abs_cases (t - (n : ℚ)) with ⟨e2, c2⟩ | ⟨e2, c2⟩
  · exfalso; apply hnm
    have : (n : ℚ) = m := by linarith
    exact_mod_cast this
  · -- t = m + 1/2, so m must not be farther: impossible unless t < 0
    have hte : t = m + 1 / 2 := by linarith
    have hh := round_nearest_half m
    rw [← hte, ← hm] at hh
    have hm0 : m < 0 := by
      by_contra hc
      rw [if_pos (by omega)] at hh; omega
    have hnm1 : (n : ℚ) = m + 1 := by linarith
    have hn1 : n = m + 1 := by exact_mod_cast hnm1
    have : |n| ≤ |m| := by
      rw [hn1, abs_of_nonpos (by omega), abs_of_neg hm0]; omega
    exact_mod_cast this
  · have hte : t = (m - 1 : Int) + 1 / 2 := by push_cast; linarith
    have hh := round_nearest_half (m - 1)
    rw [← hte, ← hm] at hh
    have hm0 : 1 ≤ m := by
      by_contra hc
      rw [if_neg (by omega)] at hh; omega
    have hnm1 : (n : ℚ) = m - 1 := by linarith
    have hn1 : n = m - 1 := by exact_mod_cast hnm1
    have : |n| ≤ |m| := by
      rw [hn1, abs_of_nonneg (by omega), abs_of_pos (by omega)]; omega
    exact_mod_cast this
  · exfalso; apply hnm
    have : (n : ℚ) = m := by linarith
    exact_mod_cast this

theorem roundTo_mono (P : Nat) (mode : RoundMode) {q r : ℚ} (h : q ≤ r) :
    roundTo P mode q ≤ roundTo P mode r := by
  have hp := ten_pow_pos P
  unfold roundTo
  rw [div_le_div_iff_of_pos_right hp]
  exact_mod_cast round_mono mode (mul_le_mul_of_nonneg_right h hp.le)

theorem roundTo_neg (P : Nat) (mode : RoundMode) (q : ℚ) :
    roundTo P mode (-q) = -roundTo P (flip mode) q := by
  unfold roundTo
  rw [neg_mul, round_neg]; push_cast; ring

theorem roundTo_bracket (P : Nat) (q : ℚ) : roundTo P .floor q ≤ roundTo P .nearest q ∧
    roundTo P .nearest q ≤ roundTo P .ceil q ∧
    roundTo P .ceil q ≤ roundTo P .floor q + 1 / 10 ^ P := by
  have hp := ten_pow_pos P
  obtain ⟨h1, h2, h3⟩ := round_bracket (q * 10 ^ P)
  unfold roundTo
  rw [← add_div, div_le_div_iff_of_pos_right hp, div_le_div_iff_of_pos_right hp,
    div_le_div_iff_of_pos_right hp]
  exact ⟨by exact_mod_cast h1, by exact_mod_cast h2, by exact_mod_cast h3⟩

theorem roundTo_floor_eq_ceil_iff (P : Nat) (q : ℚ) :
    roundTo P .floor q = roundTo P .ceil q ↔ ∃ n : Int, q = (n : ℚ) / 10 ^ P := by
  have hpn := ten_pow_ne P
  unfold roundTo
  rw [div_left_inj' hpn, Int.cast_inj, round_floor_eq_ceil_iff]
  constructor
  · rintro ⟨n, hn⟩; exact ⟨n, by rw [← hn, mul_div_assoc, div_self hpn, mul_one]⟩
  · rintro ⟨n, hn⟩; exact ⟨n, by rw [hn, div_mul_cancel₀ _ hpn]⟩

end Spec

end Fixnum
