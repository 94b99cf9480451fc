import Verif.Props.Vesting

/-! # Property C136: buying and selling

Client code: an account of cash and units of some asset.  An order to buy spends an amount of cash at a
price, an order to sell gives away an amount of units at a price; what is received is rounded down.  An
order that the account does not cover is left out. -/

namespace Fixnum

open Res Spec

variable {L : Layout} {P : Nat}

/-- An order of the client: cash to spend, or units to give away, and the price. -/
inductive Order (L : Layout) (P : Nat) where
  | buy (spend price : FP L P)
  | sell (give price : FP L P)

/-- The client: `spend.rdiv(price, Floor)?` units are bought, `give.rmul(price, Floor)?` is received;
both balances change with `csub` and `cadd`. -/
def trade (cfg : Cfg) (cash units : FP L P) : Order L P → Res ArithErr (FP L P × FP L P)
  | .buy spend price =>
    if FP.cmp cash spend = .lt then .ok (cash, units)
    else do
      let got ← FP.rdiv cfg spend price .floor
      let cash ← FP.csub cash spend
      let units ← FP.cadd units got
      .ok (cash, units)
  | .sell give price =>
    if FP.cmp units give = .lt then .ok (cash, units)
    else do
      let got ← FP.rmul cfg give price .floor
      let units ← FP.csub units give
      let cash ← FP.cadd cash got
      .ok (cash, units)

/-- The client's loop over its orders. -/
def trades (cfg : Cfg) : FP L P → FP L P → List (Order L P) → Res ArithErr (FP L P × FP L P)
  | cash, units, [] => .ok (cash, units)
  | cash, units, o :: os => do
    let (cash, units) ← trade cfg cash units o
    trades cfg cash units os

/-- What an account is worth at a price. -/
def Spec.worth (price : ℚ) (account : FP L P × FP L P) : ℚ :=
  value account.1 + value account.2 * price

/-- Buys at no less than the price `m`, sells at no more, and neither amount is negative. -/
def Spec.NoBetter (m : ℚ) : Order L P → Prop
  | .buy spend price => 0 ≤ value spend ∧ m ≤ value price
  | .sell give price => 0 ≤ value give ∧ 0 ≤ value price ∧ value price ≤ m

/-- Buys and sells at the price `m`, no negative amount. -/
def Spec.AtPrice (m : ℚ) : Order L P → Prop
  | .buy spend price => 0 ≤ value spend ∧ value price = m
  | .sell give price => 0 ≤ value give ∧ value price = m

theorem AtPrice.noBetter {m : ℚ} (hm : 0 < m) {o : Order L P} (h : AtPrice m o) : NoBetter m o := by
  cases o with
  | buy s p => exact ⟨h.1, h.2.ge⟩
  | sell g p => exact ⟨h.1, h.2 ▸ hm.le, h.2.le⟩

theorem trade_step {cfg : Cfg} (hv : Valid cfg L P) {m : ℚ} (hm : 0 < m) {cash units : FP L P}
    {o : Order L P} {a : FP L P × FP L P} (hc : 0 ≤ value cash) (hu : 0 ≤ value units)
    (ho : NoBetter m o) (h : trade cfg cash units o = .ok a) :
    0 ≤ value a.1 ∧ 0 ≤ value a.2 ∧ worth m a ≤ worth m (cash, units) ∧
    (AtPrice m o → worth m (cash, units) - max 1 m * (1 / 10 ^ P) ≤ worth m a) := by
  have hε : (0 : ℚ) < 1 / 10 ^ P := by have := ten_pow_pos P; positivity
  have hx1 : 1 * (1 / 10 ^ P : ℚ) ≤ max 1 m * (1 / 10 ^ P) :=
    mul_le_mul_of_nonneg_right (le_max_left _ _) hε.le
  have hx2 : m * (1 / 10 ^ P : ℚ) ≤ max 1 m * (1 / 10 ^ P) :=
    mul_le_mul_of_nonneg_right (le_max_right _ _) hε.le
  have stay : 0 ≤ value cash ∧ 0 ≤ value units ∧ worth m (cash, units) ≤ worth m (cash, units) ∧
      (AtPrice m o → worth m (cash, units) - max 1 m * (1 / 10 ^ P) ≤ worth m (cash, units)) :=
    ⟨hc, hu, le_refl _, fun _ => by linarith⟩
  cases o with
  | buy s p =>
    obtain ⟨hs, hp⟩ := ho
    have hp0 : 0 < value p := by linarith
    simp only [trade] at h
    split at h
    · cases h; exact stay
    · rename_i k
      rw [C54_cmp, compare_lt_iff_lt, not_lt] at k
      obtain ⟨g, h1, h⟩ := bind_ok_of h
      obtain ⟨c, h2, h⟩ := bind_ok_of h
      obtain ⟨u, h3, h⟩ := bind_ok_of h
      cases h
      have e1 := ((C10_rdiv_directed hv s p .floor (by simp) hp0.ne').ok_iff g).1 h1
      have e2 := C02_csub_ok _ _ _ h2
      have e3 := C01_cadd_ok _ _ _ h3
      obtain ⟨f1, f2⟩ := roundTo_floor_lt P (value s / value p)
      have f3 := roundTo_nonneg P .floor (div_nonneg hs hp0.le)
      rw [← e1] at f1 f2 f3
      have b1 : value g * value p ≤ value s := (le_div_iff₀ hp0).1 f1
      have b2 : value s < (value g + 1 / 10 ^ P) * value p := (div_lt_iff₀ hp0).1 f2
      have b3 : value g * m ≤ value g * value p := mul_le_mul_of_nonneg_left hp f3
      refine ⟨by rw [e2]; linarith, by rw [e3]; linarith, ?_, fun ha => ?_⟩
      · simp only [worth, e2, e3]; linarith
      · have hpm : value p = m := ha.2
        rw [hpm] at b2
        simp only [worth, e2, e3]; linarith
  | sell s p =>
    obtain ⟨hs, hp0, hp⟩ := ho
    simp only [trade] at h
    split at h
    · cases h; exact stay
    · rename_i k
      rw [C54_cmp, compare_lt_iff_lt, not_lt] at k
      obtain ⟨g, h1, h⟩ := bind_ok_of h
      obtain ⟨u, h2, h⟩ := bind_ok_of h
      obtain ⟨c, h3, h⟩ := bind_ok_of h
      cases h
      have e1 := ((C07_rmul_partial hv s p .floor (by simp)).ok_iff g).1 h1
      have e2 := C02_csub_ok _ _ _ h2
      have e3 := C01_cadd_ok _ _ _ h3
      obtain ⟨f1, f2⟩ := roundTo_floor_lt P (value s * value p)
      have f3 := roundTo_nonneg P .floor (mul_nonneg hs hp0)
      rw [← e1] at f1 f2 f3
      have b3 : value s * value p ≤ value s * m := mul_le_mul_of_nonneg_left hp hs
      refine ⟨by rw [e3]; linarith, by rw [e2]; linarith, ?_, fun ha => ?_⟩
      · simp only [worth, e2, e3]; linarith
      · have hpm : value p = m := ha.2
        rw [hpm] at f2
        simp only [worth, e2, e3]; linarith

/-- C136: no sequence of orders, each at a price no better than `m`, makes an account worth more at the
price `m`, and no balance becomes negative. -/
theorem C136_no_gain {cfg : Cfg} (hv : Valid cfg L P) (m : ℚ) (hm : 0 < m) (os : List (Order L P))
    (ho : ∀ o ∈ os, NoBetter m o) (cash units : FP L P) (hc : 0 ≤ value cash) (hu : 0 ≤ value units)
    (a : FP L P × FP L P) (h : trades cfg cash units os = .ok a) :
    0 ≤ value a.1 ∧ 0 ≤ value a.2 ∧ worth m a ≤ worth m (cash, units) := by
  induction os generalizing cash units with
  | nil => cases h; exact ⟨hc, hu, le_refl _⟩
  | cons o os ih =>
    unfold trades at h
    obtain ⟨b, h1, h⟩ := bind_ok_of h
    obtain ⟨k1, k2, k3, -⟩ := trade_step hv hm hc hu (ho o (by simp)) h1
    obtain ⟨j1, j2, j3⟩ := ih (fun o h => ho o (List.mem_cons_of_mem _ h)) b.1 b.2 k1 k2 h
    exact ⟨j1, j2, j3.trans k3⟩

-- 10.00 in cash; at 0.03 buys 333.33 units for 10.00, which are sold for 9.99
example : trades debugCfg (⟨1000⟩ : FP .i64 2) ⟨0⟩ [.buy ⟨1000⟩ ⟨3⟩, .sell ⟨33333⟩ ⟨3⟩, .buy ⟨5000⟩ ⟨3⟩] =
    .ok (⟨999⟩, ⟨0⟩) := by decide +kernel
example := C136_no_gain (cfg := debugCfg) (by decide) (3 / 100) (by norm_num)
  [.buy (⟨1000⟩ : FP .i64 2) ⟨3⟩, .sell ⟨33333⟩ ⟨3⟩, .buy ⟨5000⟩ ⟨4⟩]
  (by simp [NoBetter, value]; decide +kernel) ⟨1000⟩ ⟨0⟩ (by decide +kernel) (by decide +kernel)
  (⟨999⟩, ⟨0⟩) (by decide +kernel)

/-- C136: at one price, every order costs at most one unit in the last place, of cash or of the asset,
whichever is worth more. -/
theorem C136_loss {cfg : Cfg} (hv : Valid cfg L P) (m : ℚ) (hm : 0 < m) (os : List (Order L P))
    (ho : ∀ o ∈ os, AtPrice m o) (cash units : FP L P) (hc : 0 ≤ value cash) (hu : 0 ≤ value units)
    (a : FP L P × FP L P) (h : trades cfg cash units os = .ok a) :
    worth m (cash, units) - os.length * (max 1 m * value (FP.epsilon : FP L P)) ≤ worth m a := by
  rw [C52_epsilon.1]
  induction os generalizing cash units with
  | nil => cases h; simp
  | cons o os ih =>
    unfold trades at h
    obtain ⟨b, h1, h⟩ := bind_ok_of h
    obtain ⟨k1, k2, -, k4⟩ := trade_step hv hm hc hu (AtPrice.noBetter hm (ho o (by simp))) h1
    have j := ih (fun o h => ho o (List.mem_cons_of_mem _ h)) b.1 b.2 k1 k2 h
    have k := k4 (ho o (by simp))
    rw [List.length_cons]
    push_cast
    linarith

example := C136_loss (cfg := debugCfg) (by decide) (3 / 100) (by norm_num)
  [.buy (⟨1000⟩ : FP .i64 2) ⟨3⟩, .sell ⟨33333⟩ ⟨3⟩, .buy ⟨5000⟩ ⟨3⟩]
  (by simp [AtPrice, value]; decide +kernel) ⟨1000⟩ ⟨0⟩ (by decide +kernel) (by decide +kernel)
  (⟨999⟩, ⟨0⟩) (by decide +kernel)

/-- C136: an order that is covered is executed: the amount is taken from one balance, and the other grows by
what it buys or fetches, rounded down. -/
theorem C136_executed {cfg : Cfg} (hv : Valid cfg L P) (cash units x price : FP L P) (a : FP L P × FP L P) :
    (0 < value price → value x ≤ value cash → trade cfg cash units (.buy x price) = .ok a →
      value a.1 = value cash - value x ∧
      value a.2 = value units + roundTo P .floor (value x / value price)) ∧
    (value x ≤ value units → trade cfg cash units (.sell x price) = .ok a →
      value a.2 = value units - value x ∧
      value a.1 = value cash + roundTo P .floor (value x * value price)) := by
  constructor
  · intro hp k h
    simp only [trade] at h
    rw [if_neg (by rw [C54_cmp, compare_lt_iff_lt, not_lt]; exact k)] at h
    obtain ⟨g, h1, h⟩ := bind_ok_of h
    obtain ⟨c, h2, h⟩ := bind_ok_of h
    obtain ⟨u, h3, h⟩ := bind_ok_of h
    cases h
    rw [← ((C10_rdiv_directed hv x price .floor (by simp) hp.ne').ok_iff g).1 h1]
    exact ⟨C02_csub_ok _ _ _ h2, C01_cadd_ok _ _ _ h3⟩
  · intro k h
    simp only [trade] at h
    rw [if_neg (by rw [C54_cmp, compare_lt_iff_lt, not_lt]; exact k)] at h
    obtain ⟨g, h1, h⟩ := bind_ok_of h
    obtain ⟨u, h2, h⟩ := bind_ok_of h
    obtain ⟨c, h3, h⟩ := bind_ok_of h
    cases h
    rw [← ((C07_rmul_partial hv x price .floor (by simp)).ok_iff g).1 h1]
    exact ⟨C02_csub_ok _ _ _ h2, C01_cadd_ok _ _ _ h3⟩

example := (C136_executed (cfg := debugCfg) (by decide) (⟨1000⟩ : FP .i64 2) ⟨0⟩ ⟨1000⟩ ⟨3⟩
  (⟨0⟩, ⟨33333⟩)).1 (by decide +kernel) (by decide +kernel) (by decide +kernel)
example := (C136_executed (cfg := debugCfg) (by decide) (⟨0⟩ : FP .i64 2) ⟨33333⟩ ⟨33333⟩ ⟨3⟩
  (⟨999⟩, ⟨0⟩)).2 (by decide +kernel) (by decide +kernel)

/-- C136: an order that is not covered changes nothing. -/
theorem C136_left_out (cfg : Cfg) (cash units x price : FP L P) :
    (value cash < value x → trade cfg cash units (.buy x price) = .ok (cash, units)) ∧
    (value units < value x → trade cfg cash units (.sell x price) = .ok (cash, units)) := by
  constructor <;> intro k <;> simp only [trade] <;>
    exact if_pos (by rw [C54_cmp, compare_lt_iff_lt]; exact k)

example := (C136_left_out debugCfg (⟨1000⟩ : FP .i64 2) ⟨0⟩ ⟨1001⟩ ⟨3⟩).1 (by decide +kernel)
example := (C136_left_out debugCfg (⟨1000⟩ : FP .i64 2) ⟨0⟩ ⟨1⟩ ⟨3⟩).2 (by decide +kernel)

theorem representable_add_le {x y : FP L P} (h0 : 0 ≤ value x + value y)
    (h : value x + value y ≤ maxValue L P) : Representable L P (value x + value y) := by
  have e : value x + value y = ((x.inner.toInt + y.inner.toInt : Int) : ℚ) / 10 ^ P := by
    unfold value; push_cast; ring
  rw [e]
  refine representable_of_abs_le ?_
  rw [← e, abs_of_nonneg h0]
  exact h

/-- C136: if the range holds all the account is worth, in cash and in units, no order ever fails. -/
theorem C136_returns {cfg : Cfg} (hv : Valid cfg L P) (m : ℚ) (hm : 0 < m) (os : List (Order L P))
    (ho : ∀ o ∈ os, NoBetter m o) (cash units : FP L P) (hc : 0 ≤ value cash) (hu : 0 ≤ value units)
    (h1 : worth m (cash, units) ≤ maxValue L P) (h2 : worth m (cash, units) / m ≤ maxValue L P) :
    ∃ a, trades cfg cash units os = .ok a := by
  have hz : value (FP.zero : FP L P) = 0 := C52_zero
  have hM : value (FP.max : FP L P) = maxValue L P := C52_bounds_value.2
  induction os generalizing cash units with
  | nil => exact ⟨_, rfl⟩
  | cons o os ih =>
    have step : ∃ b, trade cfg cash units o = .ok b := by
      have w : worth m (cash, units) = value cash + value units * m := rfl
      rw [div_le_iff₀ hm] at h2
      have ho := ho o (by simp)
      cases o with
      | buy s p =>
        obtain ⟨hs, hp⟩ := ho
        have hp0 : 0 < value p := by linarith
        simp only [trade]
        split
        · exact ⟨_, rfl⟩
        · rename_i k
          rw [C54_cmp, compare_lt_iff_lt, not_lt] at k
          have q0 := div_nonneg hs hp0.le
          have q1 : value s / value p * m ≤ value s := by
            rw [div_mul_eq_mul_div, div_le_iff₀ hp0]
            exact mul_le_mul_of_nonneg_left hp hs
          have hun : 0 ≤ value units * m := mul_nonneg hu hm.le
          have q2 : value s / value p ≤ maxValue L P :=
            le_of_mul_le_mul_right (by linarith) hm
          obtain ⟨g, k1, e1⟩ := (C10_rdiv_directed hv s p .floor (by simp) hp0.ne').1
            (representable_within .floor FP.zero FP.max (by rw [hz]; exact q0) (by rw [hM]; exact q2))
          obtain ⟨c, k2, -⟩ := (C02_csub_exact cash s).1 (representable_sub_nonneg hc hs)
          have g0 := roundTo_nonneg P .floor q0
          have g1 := (roundTo_floor_lt P (value s / value p)).1
          rw [← e1] at g0 g1
          have g2 := mul_le_mul_of_nonneg_right g1 hm.le
          obtain ⟨u, k3, -⟩ := (C01_cadd_exact units g).1 (representable_add_le (by linarith)
            (le_of_mul_le_mul_right (by linarith) hm))
          exact ⟨(c, u), by rw [k1, ok_bind, k2, ok_bind, k3]; rfl⟩
      | sell s p =>
        obtain ⟨hs, hp0, hp⟩ := ho
        simp only [trade]
        split
        · exact ⟨_, rfl⟩
        · rename_i k
          rw [C54_cmp, compare_lt_iff_lt, not_lt] at k
          have q0 := mul_nonneg hs hp0
          have q1 : value s * value p ≤ value units * m := mul_le_mul k hp hp0 hu
          obtain ⟨g, k1, e1⟩ := (C07_rmul_partial hv s p .floor (by simp)).1
            (representable_within .floor FP.zero FP.max (by rw [hz]; exact q0) (by rw [hM]; linarith))
          obtain ⟨u, k2, -⟩ := (C02_csub_exact units s).1 (representable_sub_nonneg hu hs)
          have g0 := roundTo_nonneg P .floor q0
          have g1 := (roundTo_floor_lt P (value s * value p)).1
          rw [← e1] at g0 g1
          obtain ⟨c, k3, -⟩ := (C01_cadd_exact cash g).1 (representable_add_le (by linarith)
            (by linarith))
          exact ⟨(c, u), by rw [k1, ok_bind, k2, ok_bind, k3]; rfl⟩
    obtain ⟨b, k⟩ := step
    obtain ⟨k1, k2, k3, -⟩ := trade_step hv hm hc hu (ho o (by simp)) k
    obtain ⟨a, j⟩ := ih (fun o h => ho o (List.mem_cons_of_mem _ h)) b.1 b.2 k1 k2 (k3.trans h1)
      ((div_le_div_of_nonneg_right k3 hm.le).trans h2)
    exact ⟨a, by unfold trades; rw [k]; exact j⟩

example := C136_returns (cfg := debugCfg) (by decide) (3 / 100) (by norm_num)
  [.buy (⟨1000⟩ : FP .i64 2) ⟨3⟩, .sell ⟨33333⟩ ⟨2⟩, .buy ⟨5000⟩ ⟨4⟩]
  (by simp [NoBetter, value]; decide +kernel) ⟨1000⟩ ⟨0⟩ (by decide +kernel) (by decide +kernel)
  (by decide +kernel) (by decide +kernel)
/-- Outside: at a price of 0.01 more units than the range holds. -/
example : trades debugCfg (⟨1000000000000000000⟩ : FP .i64 2) ⟨0⟩ [.buy ⟨1000000000000000000⟩ ⟨1⟩] =
    .err .overflow := by decide +kernel

end Fixnum
