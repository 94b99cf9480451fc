import Verif.Props.Rounding
import Mathlib.Algebra.Order.BigOperators.Group.List
import Verif.Props.Division
import Verif.LiteralBasic

/-! # Property C113: weighted means

Client code: the mean of prices weighted by volumes, `Σ rmul(pᵢ, wᵢ) / Σ wᵢ`, all in one direction. -/

namespace Fixnum

open Res Spec

variable {L : Layout} {P : Nat}

/-- The loop of a client: sums of `price.rmul(volume, mode)?` and of the volumes. -/
def weightedSums (cfg : Cfg) (mode : RoundMode) :
    FP L P → FP L P → List (FP L P × FP L P) → Res ArithErr (FP L P × FP L P)
  | n, d, [] => .ok (n, d)
  | n, d, (p, w) :: xs => do
    let t ← FP.rmul cfg p w mode
    let n ← FP.cadd n t
    let d ← FP.cadd d w
    weightedSums cfg mode n d xs

/-- The client: `sum.rdiv(volume, mode)`. -/
def weightedMean (cfg : Cfg) (mode : RoundMode) (xs : List (FP L P × FP L P)) :
    Res ArithErr (FP L P) := do
  let (n, d) ← weightedSums cfg mode FP.zero FP.zero xs
  FP.rdiv cfg n d mode

/-- The exact sum of the products. -/
def Spec.exactProducts (xs : List (FP L P × FP L P)) : ℚ := (xs.map fun x => value x.1 * value x.2).sum

/-- The exact sum of the weights. -/
def Spec.exactWeights (xs : List (FP L P × FP L P)) : ℚ := (xs.map fun x => value x.2).sum

theorem roundTo_floor_gap (P : Nat) (q : ℚ) : q - roundTo P .floor q < 1 / 10 ^ P := by
  have hp := ten_pow_pos P
  have h := (roundTo_floor_spec P q).2
  by_contra hc
  rw [not_lt] at hc
  have hn : roundTo P .floor q = (Spec.round .floor (q * 10 ^ P) : ℚ) / 10 ^ P := rfl
  have := h (Spec.round .floor (q * 10 ^ P) + 1) (by
    push_cast
    rw [add_div, ← hn]
    linarith)
  push_cast at this
  rw [add_div, ← hn] at this
  have : (0 : ℚ) < 1 / 10 ^ P := by positivity
  linarith

theorem roundTo_ceil_gap (P : Nat) (q : ℚ) : roundTo P .ceil q - q < 1 / 10 ^ P := by
  have h := roundTo_floor_gap P (-q)
  rw [roundTo_neg] at h
  change -q - -roundTo P .ceil q < _ at h
  linarith

/-- The sign of the error: rounding down loses, rounding up gains. -/
def sense : RoundMode → ℚ
  | .floor => 1
  | .nearest => 0
  | .ceil => -1

theorem directed_gap {mode : RoundMode} (hm : mode ≠ .nearest) (q : ℚ) :
    0 ≤ sense mode * (q - roundTo P mode q) ∧ sense mode * (q - roundTo P mode q) < 1 / 10 ^ P := by
  cases mode with
  | floor => simpa [sense] using ⟨(roundTo_floor_spec P q).1, by simpa using roundTo_floor_gap P q⟩
  | nearest => exact absurd rfl hm
  | ceil => simpa [sense] using ⟨(roundTo_ceil_spec P q).1, by simpa using roundTo_ceil_gap P q⟩

theorem weightedSums_gap {cfg : Cfg} (hv : Valid cfg L P) {mode : RoundMode} (hm : mode ≠ .nearest)
    (xs : List (FP L P × FP L P)) (n d n' d' : FP L P)
    (h : weightedSums cfg mode n d xs = .ok (n', d')) :
    value d' = value d + exactWeights xs ∧
    0 ≤ sense mode * (value n + exactProducts xs - value n') ∧
    sense mode * (value n + exactProducts xs - value n') ≤ xs.length * (1 / 10 ^ P) := by
  induction xs generalizing n d with
  | nil => cases h; simp [exactWeights, exactProducts]
  | cons x xs ih =>
    obtain ⟨p, w⟩ := x
    unfold weightedSums at h
    obtain ⟨t, h1, h⟩ := bind_ok_inv h
    obtain ⟨n1, h2, h⟩ := bind_ok_inv h
    obtain ⟨d1, h3, h⟩ := bind_ok_inv h
    obtain ⟨k1, k2, k3⟩ := ih n1 d1 h
    have e1 := C01_cadd_ok _ _ _ h2
    have e2 := C01_cadd_ok _ _ _ h3
    have e3 := ((C07_rmul_partial hv p w mode fun e => absurd e hm).ok_iff t).1 h1
    obtain ⟨g1, g2⟩ := directed_gap (P := P) hm (value p * value w)
    rw [← e3] at g1 g2
    have hp : exactProducts ((p, w) :: xs) = value p * value w + exactProducts xs := by
      simp [exactProducts]
    have hw : exactWeights ((p, w) :: xs) = value w + exactWeights xs := by
      simp [exactWeights]
    have key : sense mode * (value n + exactProducts ((p, w) :: xs) - value n') =
        sense mode * (value p * value w - value t) +
          sense mode * (value n1 + exactProducts xs - value n') := by
      rw [hp, e1]; ring
    refine ⟨by rw [k1, e2, hw]; ring, ?_, ?_⟩
    · rw [key]; linarith
    · rw [key, List.length_cons]
      push_cast
      linarith

theorem weighted_sum_le (xs : List (FP L P × FP L P)) (hw : ∀ x ∈ xs, 0 ≤ value x.2) (B : ℚ)
    (hB : ∀ x ∈ xs, value x.1 ≤ B) : exactProducts xs ≤ B * exactWeights xs := by
  induction xs with
  | nil => simp [exactProducts, exactWeights]
  | cons x xs ih =>
    have := ih (fun y hy => hw y (by simp [hy])) fun y hy => hB y (by simp [hy])
    have h1 := mul_le_mul_of_nonneg_right (hB x (by simp)) (hw x (by simp))
    simp only [exactProducts, exactWeights, List.map_cons, List.sum_cons] at this ⊢
    linarith [mul_add B (value x.2) (xs.map fun x => value x.2).sum]

theorem le_weighted_sum (xs : List (FP L P × FP L P)) (hw : ∀ x ∈ xs, 0 ≤ value x.2) (B : ℚ)
    (hB : ∀ x ∈ xs, B ≤ value x.1) : B * exactWeights xs ≤ exactProducts xs := by
  induction xs with
  | nil => simp [exactProducts, exactWeights]
  | cons x xs ih =>
    have := ih (fun y hy => hw y (by simp [hy])) fun y hy => hB y (by simp [hy])
    have h1 := mul_le_mul_of_nonneg_right (hB x (by simp)) (hw x (by simp))
    simp only [exactProducts, exactWeights, List.map_cons, List.sum_cons] at this ⊢
    linarith [mul_add B (value x.2) (xs.map fun x => value x.2).sum]

theorem exactWeights_nonneg (xs : List (FP L P × FP L P)) (hw : ∀ x ∈ xs, 0 ≤ value x.2) :
    0 ≤ exactWeights xs :=
  List.sum_nonneg fun q hq => by
    obtain ⟨x, hx, rfl⟩ := List.mem_map.1 hq
    exact hw x hx

/-- What both directions share. -/
theorem weightedMean_gap {cfg : Cfg} (hv : Valid cfg L P) {mode : RoundMode} (hm : mode ≠ .nearest)
    (xs : List (FP L P × FP L P)) (hw : ∀ x ∈ xs, 0 ≤ value x.2) (r : FP L P)
    (h : weightedMean cfg mode xs = .ok r) :
    0 < exactWeights xs ∧ 0 ≤ sense mode * (exactProducts xs / exactWeights xs - value r) ∧
    sense mode * (exactProducts xs / exactWeights xs - value r) <
      (1 + xs.length / exactWeights xs) * (1 / 10 ^ P) ∧
    ∃ n : FP L P, value r = roundTo P mode (value n / exactWeights xs) ∧
      0 ≤ sense mode * (exactProducts xs - value n) := by
  unfold weightedMean at h
  obtain ⟨⟨n, d⟩, h1, h⟩ := bind_ok_inv h
  dsimp only at h
  obtain ⟨k1, k2, k3⟩ := weightedSums_gap hv hm xs _ _ _ _ h1
  have hz : value (FP.zero : FP L P) = 0 := C52_zero
  rw [hz, zero_add] at k1 k2 k3
  have hd : value d ≠ 0 := by
    intro hd
    rw [(C10_rdiv_zero_iff hv n d mode).2 hd] at h
    cases h
  have hW : 0 < exactWeights xs := lt_of_le_of_ne (exactWeights_nonneg xs hw) (by rw [← k1]; exact hd.symm)
  have e := ((C10_rdiv_directed hv n d mode hm hd).ok_iff r).1 h
  rw [k1] at e
  obtain ⟨g1, g2⟩ := directed_gap (P := P) hm (value n / exactWeights xs)
  rw [← e] at g1 g2
  have key : sense mode * (exactProducts xs / exactWeights xs - value r) =
      sense mode * (exactProducts xs - value n) / exactWeights xs +
        sense mode * (value n / exactWeights xs - value r) := by
    ring
  have b1 : 0 ≤ sense mode * (exactProducts xs - value n) / exactWeights xs := div_nonneg k2 hW.le
  have b2 : sense mode * (exactProducts xs - value n) / exactWeights xs ≤
      xs.length / exactWeights xs * (1 / 10 ^ P) := by
    rw [div_mul_eq_mul_div]
    exact div_le_div_of_nonneg_right k3 hW.le
  refine ⟨hW, by rw [key]; linarith, ?_, n, e, k2⟩
  rw [key, add_mul, one_mul]
  linarith

/-- C113, rounding down: the mean is never above the exact one, less than `1 + n/W` units below it
(`n` prices, total weight `W`), and never above a bound of all prices. -/
theorem C113_floor {cfg : Cfg} (hv : Valid cfg L P) (xs : List (FP L P × FP L P))
    (hw : ∀ x ∈ xs, 0 ≤ value x.2) (r : FP L P) (h : weightedMean cfg .floor xs = .ok r) :
    0 < exactWeights xs ∧ value r ≤ exactProducts xs / exactWeights xs ∧
    exactProducts xs / exactWeights xs - value r <
      (1 + xs.length / exactWeights xs) * value (FP.epsilon : FP L P) ∧
    ∀ B : FP L P, (∀ x ∈ xs, value x.1 ≤ value B) → value r ≤ value B := by
  obtain ⟨h1, h2, h3, -⟩ := weightedMean_gap hv (by simp) xs hw r h
  simp only [sense, one_mul] at h2 h3
  refine ⟨h1, by linarith, by rw [C52_epsilon.1]; exact h3, fun B hB => ?_⟩
  have := weighted_sum_le xs hw _ hB
  have : exactProducts xs / exactWeights xs ≤ value B := (div_le_iff₀ h1).2 this
  linarith

/-- C113, rounding up: the mirror image. -/
theorem C113_ceil {cfg : Cfg} (hv : Valid cfg L P) (xs : List (FP L P × FP L P))
    (hw : ∀ x ∈ xs, 0 ≤ value x.2) (r : FP L P) (h : weightedMean cfg .ceil xs = .ok r) :
    0 < exactWeights xs ∧ exactProducts xs / exactWeights xs ≤ value r ∧
    value r - exactProducts xs / exactWeights xs <
      (1 + xs.length / exactWeights xs) * value (FP.epsilon : FP L P) ∧
    ∀ B : FP L P, (∀ x ∈ xs, value B ≤ value x.1) → value B ≤ value r := by
  obtain ⟨h1, h2, h3, -⟩ := weightedMean_gap hv (by simp) xs hw r h
  simp only [sense] at h2 h3
  refine ⟨h1, by linarith, by rw [C52_epsilon.1]; linarith, fun B hB => ?_⟩
  have := le_weighted_sum xs hw _ hB
  have : value B ≤ exactProducts xs / exactWeights xs := (le_div_iff₀ h1).2 this
  linarith

-- prices 10.00, 10.01, 9.99 with volumes 1, 2, 0.5; and that rounding down may leave the range below
example := C113_floor (cfg := debugCfg) (by decide) [((⟨1000⟩ : FP .i64 2), ⟨100⟩), (⟨1001⟩, ⟨200⟩),
  (⟨999⟩, ⟨50⟩)] (by decide +kernel) ⟨1000⟩ (by decide +kernel)
example := C113_ceil (cfg := debugCfg) (by decide) [((⟨1000⟩ : FP .i64 2), ⟨100⟩), (⟨1001⟩, ⟨200⟩),
  (⟨999⟩, ⟨50⟩)] (by decide +kernel) ⟨1001⟩ (by decide +kernel)
example : weightedMean debugCfg .floor [((⟨1⟩ : FP .i64 1), ⟨5⟩), (⟨1⟩, ⟨5⟩)] = .ok ⟨0⟩ := by
  decide +kernel

theorem exactOr_cases {r : Res ArithErr (FP L P)} {q : ℚ} (h : ExactOr ArithErr.overflow r q) :
    (∃ c, r = .ok c) ∨ r = .err .overflow := by
  by_cases k : Representable L P q
  · obtain ⟨c, e, -⟩ := h.1 k
    exact .inl ⟨c, e⟩
  · exact .inr (h.2 k)

theorem weightedSums_returns {cfg : Cfg} (hv : Valid cfg L P) {mode : RoundMode}
    (hm : mode = .nearest → ¬ (L = .i128 ∧ P = 38)) (xs : List (FP L P × FP L P)) (n d : FP L P) :
    (∃ p, weightedSums cfg mode n d xs = .ok p) ∨ weightedSums cfg mode n d xs = .err .overflow := by
  induction xs generalizing n d with
  | nil => exact .inl ⟨_, rfl⟩
  | cons x xs ih =>
    obtain ⟨p, w⟩ := x
    unfold weightedSums
    rcases exactOr_cases (C07_rmul_partial hv p w mode hm) with ⟨t, e⟩ | e
    · rw [e, ok_bind]
      rcases exactOr_cases (C01_cadd_exact n t) with ⟨n1, e⟩ | e
      · rw [e, ok_bind]
        rcases exactOr_cases (C01_cadd_exact d w) with ⟨d1, e⟩ | e
        · rw [e, ok_bind]
          exact ih n1 d1
        · rw [e]; exact .inr rfl
      · rw [e]; exact .inr rfl
    · rw [e]; exact .inr rfl

/-- C113: the computation returns a number, `Overflow` or `DivisionByZero`. -/
theorem C113_returns {cfg : Cfg} (hv : Valid cfg L P) (mode : RoundMode) (hm : mode ≠ .nearest)
    (xs : List (FP L P × FP L P)) :
    (∃ r, weightedMean cfg mode xs = .ok r) ∨ weightedMean cfg mode xs = .err .overflow ∨
      weightedMean cfg mode xs = .err .divisionByZero := by
  unfold weightedMean
  rcases weightedSums_returns hv (fun e => absurd e hm) xs FP.zero FP.zero with ⟨⟨n, d⟩, e⟩ | e
  · rw [e, ok_bind]
    by_cases hd : value d = 0
    · exact .inr (.inr ((C10_rdiv_zero_iff hv n d mode).2 hd))
    · rcases exactOr_cases (C10_rdiv_directed hv n d mode hm hd) with h | h
      · exact .inl h
      · exact .inr (.inl h)
  · rw [e]; exact .inr (.inl rfl)

example : weightedMean debugCfg .ceil [((FP.max : FP .i64 2), ⟨200⟩)] = .err .overflow ∧
    weightedMean debugCfg .ceil [((FP.max : FP .i64 2), ⟨100⟩)] = .ok FP.max := by decide +kernel
example := C113_returns (cfg := debugCfg) (by decide) .ceil (by simp) [((FP.max : FP .i64 2), ⟨200⟩)]

theorem weightedSums_weights {cfg : Cfg} {mode : RoundMode} (xs : List (FP L P × FP L P))
    (n d n' d' : FP L P) (h : weightedSums cfg mode n d xs = .ok (n', d')) :
    value d' = value d + exactWeights xs := by
  induction xs generalizing n d with
  | nil => cases h; simp [exactWeights]
  | cons x xs ih =>
    obtain ⟨p, w⟩ := x
    unfold weightedSums at h
    obtain ⟨t, -, h⟩ := bind_ok_inv h
    obtain ⟨n1, -, h⟩ := bind_ok_inv h
    obtain ⟨d1, h3, h⟩ := bind_ok_inv h
    rw [ih n1 d1 h, C01_cadd_ok _ _ _ h3]
    simp [exactWeights, add_assoc]

/-- C113: without numbers, or with weights that are all zero, the result is `DivisionByZero`; and that
is the only way to get it. -/
theorem C113_zero {cfg : Cfg} (hv : Valid cfg L P) (mode : RoundMode)
    (hm : mode = .nearest → ¬ (L = .i128 ∧ P = 38))
    (xs : List (FP L P × FP L P)) (hw : ∀ x ∈ xs, 0 ≤ value x.2) :
    weightedMean cfg mode xs = .err .divisionByZero ↔ ∀ x ∈ xs, value x.2 = 0 := by
  have sums := weightedSums_returns hv hm xs
  unfold weightedMean
  constructor
  · intro h
    rcases sums FP.zero FP.zero with ⟨⟨n, d⟩, e⟩ | e
    · rw [e, ok_bind] at h
      have hd := (C10_rdiv_zero_iff hv n d mode).1 h
      have k := weightedSums_weights xs _ _ _ _ e
      rw [hd, C52_zero, zero_add] at k
      intro x hx
      have : ∀ q ∈ xs.map fun x => value x.2, q = 0 := by
        have hn : ∀ q ∈ xs.map fun x => value x.2, 0 ≤ q := by
          intro q hq
          obtain ⟨y, hy, rfl⟩ := List.mem_map.1 hq
          exact hw y hy
        exact fun q hq => List.all_zero_of_le_zero_le_of_sum_eq_zero hn k.symm hq
      exact this _ (List.mem_map.2 ⟨x, hx, rfl⟩)
    · rw [e] at h
      cases h
  · intro hz
    have : weightedSums cfg mode FP.zero FP.zero xs = .ok (FP.zero, FP.zero) := by
      clear sums hw
      induction xs with
      | nil => rfl
      | cons x xs ih =>
        obtain ⟨p, w⟩ := x
        have hw0 : value w = value (FP.zero : FP L P) := (hz (p, w) (by simp)).trans C52_zero.symm
        have hw : w = FP.zero := value_inj hw0
        have h1 : FP.rmul cfg p w mode = .ok FP.zero := by
          refine ((C07_rmul_partial hv p w mode hm).ok_iff _).2 ?_
          rw [hw, C52_zero, mul_zero, ← C52_zero (L := L) (P := P), roundTo_value]
        have h2 : FP.cadd (FP.zero : FP L P) FP.zero = .ok FP.zero := by
          refine ((C01_cadd_exact _ _).ok_iff _).2 ?_
          rw [C52_zero, add_zero]
        unfold weightedSums
        rw [h1, ok_bind, h2, ok_bind, hw, h2, ok_bind]
        exact ih fun y hy => hz y (by simp [hy])
    rw [this, ok_bind]
    exact (C10_rdiv_zero_iff hv _ _ mode).2 C52_zero

example : weightedMean debugCfg .nearest [((⟨1⟩ : FP .i64 1), ⟨0⟩), (⟨7⟩, ⟨0⟩)] = .err .divisionByZero :=
  (C113_zero (by decide) _ (by simp) _ (by decide +kernel)).2 (by decide +kernel)

end Fixnum
