import Verif.Props.Rewards
import Verif.Props.Agreement

/-! # Property C140: prices with and without tax

Client code: a tax at some rate is added to a net price, and later taken out of the gross price again.  All
roundings are to nearest. -/

namespace Fixnum

open Res Spec

variable {L : Layout} {P : Nat}

/-- The client: `net.cadd(net.rmul(rate, Nearest)?)?`. -/
def addTax (cfg : Cfg) (net rate : FP L P) : Res ArithErr (FP L P) := do
  let tax ← FP.rmul cfg net rate .nearest
  FP.cadd net tax

/-- The client: `net = gross.rdiv(ONE.cadd(rate)?, Nearest)?`, and the tax is `gross.csub(net)?`. -/
def takeOutTax (cfg : Cfg) (gross rate : FP L P) : Res ArithErr (FP L P × FP L P) := do
  let one ← FP.one cfg
  let f ← FP.cadd one rate
  let net ← FP.rdiv cfg gross f .nearest
  let tax ← FP.csub gross net
  .ok (net, tax)

theorem rate_type {q : ℚ} (h0 : 0 ≤ q) (h : 2 * (1 + q) ≤ maxValue L P) : ¬ (L = .i128 ∧ P = 38) := by
  rintro ⟨rfl, rfl⟩
  have : maxValue .i128 38 < 2 := by
    unfold maxValue rawMax; norm_num [Layout.bits]
  linarith

/-- The divisor exists, and the division is the rounded quotient. -/
theorem factor_ok {cfg : Cfg} (hv : Valid cfg L P) {rate : FP L P} (h0 : 0 ≤ value rate)
    (h : 2 * (1 + value rate) ≤ maxValue L P) :
    ∃ o f : FP L P, (FP.one cfg : Res ArithErr _) = .ok o ∧ FP.cadd o rate = .ok f ∧
      value f = 1 + value rate ∧ ∀ gross, ExactOr .overflow (FP.rdiv cfg gross f .nearest)
        (roundTo P .nearest (value gross / (1 + value rate))) := by
  obtain ⟨o, e, ho⟩ := C52_one (ε := ArithErr) (L := L) (P := P) hv
  have hr : Representable L P (value o + value rate) := by
    refine representable_add_le ?_ ?_ <;> rw [ho] <;> linarith
  obtain ⟨f, e2, hf⟩ := (C01_cadd_exact o rate).1 hr
  rw [ho] at hf
  refine ⟨o, f, e, e2, hf, fun g => ?_⟩
  rw [← hf]
  exact C11_rdiv_nearest_small_partial hv g f (by rw [hf]; linarith)
    (by rw [hf, abs_of_nonneg (by linarith)]; exact h)

theorem takeOutTax_eq {cfg : Cfg} {gross rate o f : FP L P}
    (h1 : (FP.one cfg : Res ArithErr _) = .ok o) (h2 : FP.cadd o rate = .ok f) :
    takeOutTax cfg gross rate = (FP.rdiv cfg gross f .nearest >>= fun net =>
      FP.csub gross net >>= fun tax => .ok (net, tax)) := by
  unfold takeOutTax
  rw [h1, ok_bind, h2, ok_bind]

/-- C140: taking the tax out of a price to which it was added gives back exactly the net price and exactly
the tax that was added, whatever the two roundings did. -/
theorem C140_round_trip {cfg : Cfg} (hv : Valid cfg L P) {net rate gross : FP L P} (h0 : 0 ≤ value rate)
    (hr : 2 * (1 + value rate) ≤ maxValue L P) (h : addTax cfg net rate = .ok gross) :
    ∃ tax, FP.rmul cfg net rate .nearest = .ok tax ∧ takeOutTax cfg gross rate = .ok (net, tax) := by
  obtain ⟨o, f, e1, e2, hf, hd⟩ := factor_ok hv h0 hr
  obtain ⟨tax, e3, e4⟩ := bind_ok_of h
  have v3 := ((C07_rmul_partial hv net rate .nearest fun _ => rate_type h0 hr).ok_iff tax).1 e3
  have v4 := C01_cadd_ok _ _ _ e4
  have hε : (0 : ℚ) < 1 / 2 / 10 ^ P := by have := ten_pow_pos P; positivity
  have hq : roundTo P .nearest (value gross / (1 + value rate)) = value net := by
    have hpos : (0 : ℚ) < 1 + value rate := by linarith
    rcases h0.eq_or_lt with hz | hz
    · have : value tax = 0 := by
        rw [v3, ← hz, mul_zero, ← (C52_zero : value (FP.zero : FP L P) = 0), roundTo_value]
      rw [v4, this, ← hz, add_zero, add_zero, div_one, roundTo_value]
    · apply roundTo_nearest_of
      have e : value gross / (1 + value rate) - value net =
          (value tax - value net * value rate) / (1 + value rate) := by
        rw [v4]; field_simp; ring
      rw [e, abs_div, abs_of_pos hpos, div_lt_iff₀ hpos, v3]
      have := roundTo_nearest_error P (value net * value rate)
      have k : 1 / 2 / 10 ^ P * 1 < 1 / 2 / 10 ^ P * (1 + value rate) :=
        mul_lt_mul_of_pos_left (by linarith) hε
      linarith
  have e5 : FP.rdiv cfg gross f .nearest = .ok net := ((hd gross).ok_iff net).2 hq.symm
  have e6 : FP.csub gross net = .ok tax := ((C02_csub_exact gross net).ok_iff tax).2 (by rw [v4]; ring)
  refine ⟨tax, e3, ?_⟩
  rw [takeOutTax_eq e1 e2, e5, ok_bind, e6, ok_bind]

example : ∃ tax, FP.rmul debugCfg (⟨333⟩ : FP .i32 3) ⟨195⟩ .nearest = .ok tax ∧
    takeOutTax debugCfg (⟨398⟩ : FP .i32 3) ⟨195⟩ = .ok (⟨333⟩, tax) :=
  C140_round_trip (by decide) (by decide +kernel) (by decide +kernel) (by decide +kernel)

/-- C140: the other way round it is false: at a rate of 100 %, a gross price of `0.001` contains a net price of
`0.001` (a half, rounded up), to which a tax of `0.001` would be added. -/
theorem C140_gross_changes :
    takeOutTax debugCfg (⟨1⟩ : FP .i32 3) ⟨1000⟩ = .ok (⟨1⟩, ⟨0⟩) ∧
    addTax debugCfg (⟨1⟩ : FP .i32 3) ⟨1000⟩ = .ok ⟨2⟩ := by decide +kernel

/-- C140: nor does it hold for a discount: half of `0.001` off leaves nothing. -/
theorem C140_discount_outside_domain :
    addTax debugCfg (⟨1⟩ : FP .i32 3) ⟨-500⟩ = .ok ⟨0⟩ ∧
    takeOutTax debugCfg (⟨0⟩ : FP .i32 3) ⟨-500⟩ = .ok (⟨0⟩, ⟨0⟩) := by decide +kernel

/-- C140: nor for a factor of more than half of the range, for which C11 is false: on `FixedPoint<i16, U4>` at
a rate of `1.4999` the call panics with overflow checks and returns another net price without. -/
theorem C140_rate_outside_domain :
    addTax debugCfg (⟨3⟩ : FP .i16 4) ⟨14999⟩ = .ok ⟨7⟩ ∧
    takeOutTax debugCfg (⟨7⟩ : FP .i16 4) ⟨14999⟩ = .panic ∧
    takeOutTax releaseCfg (⟨7⟩ : FP .i16 4) ⟨14999⟩ = .ok (⟨2⟩, ⟨5⟩) := by decide +kernel

/-- C140: taking the tax out of any price succeeds; net price and tax add up to the price exactly, neither has
the other sign, and the tax is right up to half a unit of the net price. -/
theorem C140_split {cfg : Cfg} (hv : Valid cfg L P) (gross rate : FP L P) (h0 : 0 ≤ value rate)
    (hr : 2 * (1 + value rate) ≤ maxValue L P) :
    ∃ net tax, takeOutTax cfg gross rate = .ok (net, tax) ∧ value net + value tax = value gross ∧
      (0 ≤ value gross → 0 ≤ value net ∧ 0 ≤ value tax) ∧
      (value gross ≤ 0 → value net ≤ 0 ∧ value tax ≤ 0) ∧
      |value net - value gross / (1 + value rate)| ≤ 1 / 2 / 10 ^ P ∧
      |value tax - value net * value rate| ≤ (1 + value rate) * (1 / 2 / 10 ^ P) := by
  obtain ⟨o, f, e1, e2, hf, hd⟩ := factor_ok hv h0 hr
  have hpos : (0 : ℚ) < 1 + value rate := by linarith
  have hz : value (FP.zero : FP L P) = 0 := C52_zero
  have rep : Representable L P (roundTo P .nearest (value gross / (1 + value rate))) ∧
      (0 ≤ value gross → 0 ≤ roundTo P .nearest (value gross / (1 + value rate)) ∧
        roundTo P .nearest (value gross / (1 + value rate)) ≤ value gross) ∧
      (value gross ≤ 0 → roundTo P .nearest (value gross / (1 + value rate)) ≤ 0 ∧
        value gross ≤ roundTo P .nearest (value gross / (1 + value rate))) := by
    have up : 0 ≤ value gross → 0 ≤ value gross / (1 + value rate) ∧
        value gross / (1 + value rate) ≤ value gross := fun hg =>
      ⟨div_nonneg hg hpos.le, div_le_self hg (by linarith)⟩
    have down : value gross ≤ 0 → value gross / (1 + value rate) ≤ 0 ∧
        value gross ≤ value gross / (1 + value rate) := fun hg =>
      ⟨div_nonpos_of_nonpos_of_nonneg hg hpos.le, by
        rw [le_div_iff₀ hpos]; nlinarith⟩
    refine ⟨?_, fun hg => ?_, fun hg => ?_⟩
    · rcases le_total 0 (value gross) with hg | hg
      · exact representable_within _ FP.zero gross (by rw [hz]; exact (up hg).1) (up hg).2
      · exact representable_within _ gross FP.zero (down hg).2 (by rw [hz]; exact (down hg).1)
    · have a := roundTo_within .nearest FP.zero gross (by rw [hz]; exact (up hg).1) (up hg).2
      rw [hz] at a; exact a
    · have a := roundTo_within .nearest gross FP.zero (down hg).2 (by rw [hz]; exact (down hg).1)
      rw [hz] at a; exact ⟨a.2, a.1⟩
  obtain ⟨r0, r1, r2⟩ := rep
  obtain ⟨net, e3, v3⟩ := (hd gross).1 r0
  rw [← v3] at r1 r2
  have rs : Representable L P (value gross - value net) := by
    by_cases hd : value gross - value net = 0
    · exact ⟨FP.zero, by rw [hz, hd]⟩
    · refine representable_le ⟨gross, rfl⟩ ⟨gross.inner.toInt - net.inner.toInt, ?_⟩ ?_ ?_
      · unfold value; push_cast; ring
      · intro k
        rcases le_total 0 (value gross) with hg | hg
        · linarith [(r1 hg).1]
        · exact absurd (le_antisymm (by linarith [(r2 hg).2]) k) hd
      · intro k
        rcases le_total 0 (value gross) with hg | hg
        · exact absurd (le_antisymm k (by linarith [(r1 hg).2])) hd
        · linarith [(r2 hg).1]
  obtain ⟨tax, e4, v4⟩ := (C02_csub_exact gross net).1 rs
  have err := roundTo_nearest_error P (value gross / (1 + value rate))
  rw [← v3] at err
  refine ⟨net, tax, ?_, by rw [v4]; ring, fun hg => ⟨(r1 hg).1, by linarith [(r1 hg).2]⟩,
    fun hg => ⟨(r2 hg).1, by linarith [(r2 hg).2]⟩, err, ?_⟩
  · rw [takeOutTax_eq e1 e2, e3, ok_bind, e4, ok_bind]
  · have e : value tax - value net * value rate =
        -((1 + value rate) * (value net - value gross / (1 + value rate))) := by
      rw [v4]; field_simp; ring
    rw [e, abs_neg, abs_mul, abs_of_pos hpos]
    exact mul_le_mul_of_nonneg_left err hpos.le

example := C140_split (cfg := debugCfg) (by decide) (⟨398⟩ : FP .i32 3) ⟨195⟩ (by decide +kernel)
  (by decide +kernel)

/-- C140: adding the tax is exact up to the rounding of the tax, or `Overflow` exactly when the gross price is
not representable. -/
theorem C140_add {cfg : Cfg} (hv : Valid cfg L P) (net rate : FP L P) (hn : 0 ≤ value net)
    (h0 : 0 ≤ value rate) (hne : ¬ (L = .i128 ∧ P = 38)) :
    ExactOr .overflow (addTax cfg net rate)
      (value net + roundTo P .nearest (value net * value rate)) := by
  have k := C07_rmul_partial hv net rate .nearest fun _ => hne
  have hp := roundTo_nonneg P .nearest (mul_nonneg hn h0)
  unfold addTax
  by_cases hr : Representable L P (roundTo P .nearest (value net * value rate))
  · obtain ⟨tax, e, v⟩ := k.1 hr
    rw [e, ok_bind, ← v]
    exact C01_cadd_exact net tax
  · rw [k.2 hr]
    refine ⟨fun h => absurd ?_ hr, fun _ => rfl⟩
    by_cases hz : roundTo P .nearest (value net * value rate) = 0
    · exact ⟨FP.zero, by rw [hz, C52_zero]⟩
    · exact representable_le h ⟨_, rfl⟩ (fun _ => by linarith) fun k => absurd (le_antisymm k hp) hz

example := C140_add (cfg := debugCfg) (by decide) (⟨333⟩ : FP .i32 3) ⟨195⟩ (by decide +kernel)
  (by decide +kernel) (by decide)

end Fixnum
