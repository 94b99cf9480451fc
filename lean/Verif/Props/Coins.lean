import Verif.Props.Tax

/-! # Property C141: payments in coins

Client code: amounts are paid out in multiples of a smallest coin, and what cannot be paid is carried over to
the next payment. -/

namespace Fixnum

open Res Spec

variable {L : Layout} {P : Nat}

/-- The client: `due = carry.cadd(x)?`, `paid = due.round_towards_zero_by(coin)`, and `due.csub(paid)?` is
carried over.  The pair is what is carried over and what is paid. -/
def payOut (coin carry x : FP L P) : Res ArithErr (FP L P × FP L P) := do
  let due ← FP.cadd carry x
  let paid := FP.roundTowardsZeroBy due coin
  let carry ← FP.csub due paid
  .ok (carry, paid)

/-- The client's loop over the amounts. -/
def payOuts (coin : FP L P) : FP L P → List (FP L P) → Res ArithErr (FP L P × List (FP L P))
  | carry, [] => .ok (carry, [])
  | carry, x :: xs => do
    let (carry, paid) ← payOut coin carry x
    let (carry, rest) ← payOuts coin carry xs
    .ok (carry, paid :: rest)

theorem payOut_step {coin carry x : FP L P} {r : FP L P × FP L P} (hc : value coin ≠ 0)
    (h : payOut coin carry x = .ok r) :
    value r.1 + value r.2 = value carry + value x ∧ (∃ k : Int, value r.2 = k * value coin) ∧
    |value r.1| < |value coin| ∧ |value r.2| ≤ |value carry + value x| ∧
    0 ≤ value r.2 * (value carry + value x) := by
  obtain ⟨due, e1, h⟩ := bind_ok_of h
  obtain ⟨c, e2, h⟩ := bind_ok_of h
  cases h
  have v1 := C01_cadd_ok _ _ _ e1
  have v2 := C02_csub_ok _ _ _ e2
  obtain ⟨k, k1, k2, k3, k4⟩ := C20_round_towards_zero_by due coin hc
  rw [← v1]
  exact ⟨by rw [v2]; ring, ⟨k, k1⟩, by rw [v2]; exact k4, k2, k3⟩

/-- With a carry and amounts that are not negative, nothing becomes negative. -/
theorem payOut_nonneg {coin carry x : FP L P} {r : FP L P × FP L P} (hc : value coin ≠ 0)
    (h0 : 0 ≤ value carry) (hx : 0 ≤ value x) (h : payOut coin carry x = .ok r) :
    0 ≤ value r.1 ∧ 0 ≤ value r.2 := by
  obtain ⟨h1, -, -, h4, h5⟩ := payOut_step hc h
  have hd : 0 ≤ value carry + value x := by linarith
  rw [abs_of_nonneg hd] at h4
  have h6 := (abs_le.1 h4).2
  refine ⟨by linarith, ?_⟩
  rcases hd.eq_or_lt with k | k
  · rw [← k] at h4
    rw [abs_nonpos_iff.1 h4]
  · exact nonneg_of_mul_nonneg_left h5 k

/-- C141: every amount is answered by one payment, every payment is a whole number of coins, and what has been
paid and what is carried over add up, to the last digit, to the amounts; less than a coin is carried over. -/
theorem C141_payments {coin : FP L P} (hc : value coin ≠ 0) (xs : List (FP L P)) {carry c : FP L P}
    {ps : List (FP L P)} (h : payOuts coin carry xs = .ok (c, ps)) :
    ps.length = xs.length ∧ (∀ p ∈ ps, ∃ k : Int, value p = k * value coin) ∧
    value c + (ps.map value).sum = value carry + (xs.map value).sum ∧
    (|value carry| < |value coin| → |value c| < |value coin|) := by
  induction xs generalizing carry ps with
  | nil => cases h; simp
  | cons x xs ih =>
    obtain ⟨⟨c1, p⟩, e1, h⟩ := bind_ok_of h
    obtain ⟨⟨c2, rest⟩, e2, h⟩ := bind_ok_of h
    cases h
    obtain ⟨a1, a2, a3, -, -⟩ := payOut_step hc e1
    obtain ⟨b1, b2, b3, b4⟩ := ih e2
    refine ⟨by simp [b1], ?_, ?_, fun _ => b4 a3⟩
    · intro q hq
      rcases List.mem_cons.1 hq with rfl | hq
      · exact a2
      · exact b2 q hq
    · simp only [List.map_cons, List.sum_cons] at *
      linarith

example := C141_payments (coin := (⟨5⟩ : FP .i32 2)) (by decide +kernel) [⟨103⟩, ⟨-8⟩, ⟨4⟩]
  (carry := ⟨0⟩) (c := ⟨4⟩) (ps := [⟨100⟩, ⟨-5⟩, ⟨0⟩]) (by decide +kernel)

/-- C141: if no amount is negative, no payment is, and the sum of the payments is all that is due, rounded down to
whole coins: it does not depend on how the amounts were split up. -/
theorem C141_total {coin : FP L P} (hc : 0 < value coin) (xs : List (FP L P)) {carry c : FP L P}
    {ps : List (FP L P)} (hx : ∀ x ∈ xs, 0 ≤ value x) (h0 : 0 ≤ value carry)
    (h1 : value carry < value coin) (h : payOuts coin carry xs = .ok (c, ps)) :
    (∀ p ∈ ps, 0 ≤ value p) ∧ 0 ≤ value c ∧ value c < value coin ∧
    (ps.map value).sum = ⌊(value carry + (xs.map value).sum) / value coin⌋ * value coin := by
  have pos : (∀ p ∈ ps, 0 ≤ value p) ∧ 0 ≤ value c := by
    clear h1
    induction xs generalizing carry ps with
    | nil => cases h; exact ⟨by simp, h0⟩
    | cons x xs ih =>
      obtain ⟨⟨c1, p⟩, e1, h⟩ := bind_ok_of h
      obtain ⟨⟨c2, rest⟩, e2, h⟩ := bind_ok_of h
      cases h
      obtain ⟨a1, a2⟩ := payOut_nonneg hc.ne' h0 (hx x (by simp)) e1
      obtain ⟨b1, b2⟩ := ih (fun y hy => hx y (by simp [hy])) a1 e2
      refine ⟨fun q hq => ?_, b2⟩
      rcases List.mem_cons.1 hq with rfl | hq
      · exact a2
      · exact b1 q hq
  obtain ⟨-, k2, k3, k4⟩ := C141_payments hc.ne' xs h
  have hlt : value c < value coin := by
    have := k4 (by rw [abs_of_nonneg h0, abs_of_pos hc]; exact h1)
    rwa [abs_of_nonneg pos.2, abs_of_pos hc] at this
  have whole : ∃ k : Int, (ps.map value).sum = k * value coin := by
    clear h pos k3 k4 hlt
    induction ps with
    | nil => exact ⟨0, by simp⟩
    | cons p ps ih =>
      obtain ⟨a, ha⟩ := k2 p (by simp)
      obtain ⟨b, hb⟩ := ih fun q hq => k2 q (by simp [hq])
      exact ⟨a + b, by simp only [List.map_cons, List.sum_cons, ha, hb]; push_cast; ring⟩
  obtain ⟨k, hk⟩ := whole
  refine ⟨pos.1, pos.2, hlt, ?_⟩
  have : ⌊(value carry + (xs.map value).sum) / value coin⌋ = k := by
    rw [Int.floor_eq_iff, le_div_iff₀ hc, div_lt_iff₀ hc, ← k3, hk]
    exact ⟨by linarith [pos.2], by linarith⟩
  rw [this, hk]

example := C141_total (coin := (⟨5⟩ : FP .i32 2)) (by decide +kernel) [⟨103⟩, ⟨8⟩, ⟨4⟩]
  (carry := ⟨0⟩) (c := ⟨0⟩) (ps := [⟨100⟩, ⟨10⟩, ⟨5⟩]) (by decide +kernel) (by decide +kernel)
  (by decide +kernel) (by decide +kernel)

/-- C141: in every stretch of the payments, what was paid differs from the amounts by less than one coin. -/
theorem C141_stretch {coin : FP L P} (hc : 0 < value coin) (xs ys : List (FP L P)) {carry c : FP L P}
    {ps : List (FP L P)} (hx : ∀ x ∈ xs ++ ys, 0 ≤ value x) (h0 : 0 ≤ value carry)
    (h1 : value carry < value coin) (h : payOuts coin carry (xs ++ ys) = .ok (c, ps)) :
    |((ps.drop xs.length).map value).sum - (ys.map value).sum| < value coin := by
  have cut : ∃ c1, 0 ≤ value c1 ∧ value c1 < value coin ∧
      payOuts coin c1 ys = .ok (c, ps.drop xs.length) := by
    induction xs generalizing carry ps with
    | nil => exact ⟨carry, h0, h1, h⟩
    | cons x xs ih =>
      obtain ⟨⟨c1, p⟩, e1, h⟩ := bind_ok_of h
      obtain ⟨⟨c2, rest⟩, e2, h⟩ := bind_ok_of h
      cases h
      have a := (payOut_nonneg hc.ne' h0 (hx x (by simp)) e1).1
      have b := (payOut_step hc.ne' e1).2.2.1
      rw [abs_of_nonneg a, abs_of_pos hc] at b
      obtain ⟨d, d1, d2, d3⟩ := ih (fun y hy => hx y (List.mem_cons_of_mem _ hy)) a b e2
      exact ⟨d, d1, d2, by simpa using d3⟩
  obtain ⟨c1, g1, g2, g3⟩ := cut
  have k := (C141_payments hc.ne' ys g3).2.2.1
  obtain ⟨-, m1, m2, -⟩ := C141_total hc ys (fun y hy => hx y (by simp [hy])) g1 g2 g3
  rw [abs_lt]
  constructor <;> linarith

example := C141_stretch (coin := (⟨5⟩ : FP .i32 2)) (by decide +kernel) [⟨103⟩] [⟨8⟩, ⟨4⟩]
  (carry := ⟨0⟩) (c := ⟨0⟩) (ps := [⟨100⟩, ⟨10⟩, ⟨5⟩]) (by decide +kernel) (by decide +kernel)
  (by decide +kernel) (by decide +kernel)

/-- C141: no payment fails if every amount, increased by a coin, is in range. -/
theorem C141_returns {coin : FP L P} (hc : 0 < value coin) (xs : List (FP L P)) {carry : FP L P}
    (hx : ∀ x ∈ xs, 0 ≤ value x ∧ value x + value coin ≤ maxValue L P) (h0 : 0 ≤ value carry)
    (h1 : value carry < value coin) : ∃ r, payOuts coin carry xs = .ok r := by
  induction xs generalizing carry with
  | nil => exact ⟨_, rfl⟩
  | cons x xs ih =>
    obtain ⟨hx0, hx1⟩ := hx x (by simp)
    obtain ⟨due, e1, v1⟩ := (C01_cadd_exact carry x).1 (representable_add_le (by linarith) (by linarith))
    have hd : 0 ≤ value due := by linarith
    obtain ⟨-, -, -, k3, -⟩ := C20_round_towards_zero_by due coin hc.ne'
    have hp : 0 ≤ value (FP.roundTowardsZeroBy due coin) := by
      rw [C20_truncated due coin hc.ne', if_pos (div_nonneg hd hc.le)]
      have : (0 : ℚ) ≤ (⌊value due / value coin⌋ : Int) := by
        exact_mod_cast Int.floor_nonneg.2 (div_nonneg hd hc.le)
      exact mul_nonneg this hc.le
    obtain ⟨c, e2, -⟩ := (C02_csub_exact due (FP.roundTowardsZeroBy due coin)).1
      (representable_sub_nonneg hd hp)
    have e : payOut coin carry x = .ok (c, FP.roundTowardsZeroBy due coin) := by
      unfold payOut; rw [e1, ok_bind]; dsimp only; rw [e2, ok_bind]
    have a := (payOut_nonneg hc.ne' h0 hx0 e).1
    have b := (payOut_step hc.ne' e).2.2.1
    rw [abs_of_nonneg a, abs_of_pos hc] at b
    obtain ⟨r, er⟩ := ih (fun y hy => hx y (by simp [hy])) a b
    refine ⟨(r.1, FP.roundTowardsZeroBy due coin :: r.2), ?_⟩
    simp only [payOuts]
    rw [e, ok_bind]; dsimp only; rw [er, ok_bind]

example := C141_returns (coin := (⟨5⟩ : FP .i32 2)) (by decide +kernel) [⟨103⟩, ⟨8⟩, ⟨4⟩]
  (carry := ⟨0⟩) (by decide +kernel) (by decide +kernel) (by decide +kernel)

/-- C141: without the carry the payments lose almost a coin each: twenty times `0.04` pays nothing. -/
theorem C141_no_carry_outside_domain :
    FP.roundTowardsZeroBy (⟨4⟩ : FP .i32 2) ⟨5⟩ = ⟨0⟩ ∧
    mapOk (payOuts (⟨5⟩ : FP .i32 2) ⟨0⟩ (List.replicate 20 ⟨4⟩)) (fun r => (r.1, total r.2)) =
      .ok (⟨0⟩, .ok ⟨80⟩) := by decide +kernel

end Fixnum
