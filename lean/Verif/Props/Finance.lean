import Verif.Props.RunningError

/-! # Properties C93–C97: exchange pools, vaults, running means, fees, interest

Clients of the crate: the programs are written with the modelled operations; what they keep is stated
with the values only. -/

namespace Fixnum

open Res Spec

variable {L : Layout} {P : Nat} {ε : Type}

theorem roundTo_floor_lt (P : Nat) (q : ℚ) : roundTo P .floor q ≤ q ∧ q < roundTo P .floor q + 1 / 10 ^ P :=
  ⟨(roundTo_floor_spec P q).1, by have := abs_lt.1 (roundTo_error P .floor q); linarith⟩

theorem roundTo_ceil_lt (P : Nat) (q : ℚ) : q ≤ roundTo P .ceil q ∧ roundTo P .ceil q < q + 1 / 10 ^ P :=
  ⟨(roundTo_ceil_spec P q).1, by have := abs_lt.1 (roundTo_error P .ceil q); linarith⟩

theorem roundTo_nonneg (P : Nat) (m : RoundMode) {q : ℚ} (h : 0 ≤ q) : 0 ≤ roundTo P m q := by
  have := roundTo_mono P m h
  rwa [show roundTo P m 0 = 0 by unfold roundTo; simpa using round_int m 0] at this

/-- Proportion `a·b/c`, the product first, both roundings in one mode. -/
def prorate (cfg : Cfg) (a b c : FP L P) (mode : RoundMode) : Res ArithErr (FP L P) := do
  let p ← FP.rmul cfg a b mode
  FP.rdiv cfg p c mode

/-- Rounded down a proportion of nonnegative numbers is at most the exact one and misses it by less
than `EPSILON + EPSILON / c`. -/
theorem prorate_floor {cfg : Cfg} (hv : Valid cfg L P) {a b c r : FP L P} (ha : 0 ≤ value a)
    (hb : 0 ≤ value b) (hc : 0 < value c) (h : prorate cfg a b c .floor = .ok r) :
    0 ≤ value r ∧ value r * value c ≤ value a * value b ∧
      value a * value b < value r * value c + (value c + 1) * (1 / 10 ^ P) := by
  obtain ⟨p, h1, h2⟩ := bind_ok_of h
  have e1 := ((C07_rmul_partial hv a b .floor (by simp)).ok_iff p).1 h1
  have e2 := ((C10_rdiv_directed hv p c .floor (by decide) hc.ne').ok_iff r).1 h2
  have b1 := roundTo_floor_lt P (value a * value b)
  have b2 := roundTo_floor_lt P (value p / value c)
  have n1 := roundTo_nonneg P .floor (mul_nonneg ha hb)
  rw [← e1] at b1 n1
  have n2 := roundTo_nonneg P .floor (div_nonneg n1 hc.le)
  rw [← e2] at b2 n2
  have k1 := (le_div_iff₀ hc).1 b2.1
  have k2 := (div_lt_iff₀ hc).1 b2.2
  exact ⟨n2, by linarith, by nlinarith [b1.2]⟩

/-! ## C93 -/

/-- A client: a pool with reserves `x` and `y` takes `d` of the first and pays `y·d/(x + d)` of the
second; the new reserves and the payment. -/
def swap (cfg : Cfg) (mode : RoundMode) (s : FP L P × FP L P) (d : FP L P) :
    Res ArithErr ((FP L P × FP L P) × FP L P) := do
  let x ← FP.cadd s.1 d
  let out ← prorate cfg s.2 d x mode
  let y ← FP.csub s.2 out
  .ok ((x, y), out)

/-- A sequence of exchanges, each in one of the directions. -/
def swaps (cfg : Cfg) (mode : RoundMode) :
    List (Bool × FP L P) → FP L P × FP L P → Res ArithErr (FP L P × FP L P)
  | [], s => .ok s
  | (true, d) :: ds, s => do
    let r ← swap cfg mode s d
    swaps cfg mode ds r.1
  | (false, d) :: ds, s => do
    let r ← swap cfg mode s.swap d
    swaps cfg mode ds r.1.swap

/-- C93: one exchange with `Floor`: the payment is nonnegative, less than the reserve, at most the
exact one and less than `EPSILON·(1 + 1/(x + d))` below it; the product of the reserves does not
decrease. -/
theorem C93_swap {cfg : Cfg} (hv : Valid cfg L P) (x y d x' y' out : FP L P) (hx : 0 < value x)
    (hy : 0 < value y) (hd : 0 ≤ value d) (h : swap cfg .floor (x, y) d = .ok ((x', y'), out)) :
    value x' = value x + value d ∧ value y' = value y - value out ∧
    0 ≤ value out ∧ value out < value y ∧
    value out ≤ value y * value d / (value x + value d) ∧
    value y * value d / (value x + value d) < value out +
      value (FP.epsilon : FP L P) * (1 + 1 / (value x + value d)) ∧
    value x * value y ≤ value x' * value y' := by
  obtain ⟨n, h1, h⟩ := bind_ok_of h
  obtain ⟨o, h2, h⟩ := bind_ok_of h
  obtain ⟨w, h3, h⟩ := bind_ok_of h
  simp only [Res.ok.injEq, Prod.mk.injEq] at h
  obtain ⟨⟨rfl, rfl⟩, rfl⟩ := h
  have e1 := C01_cadd_ok _ _ _ h1
  have e3 := C02_csub_ok _ _ _ h3
  dsimp only at e1 e3 h2
  have hn : 0 < value n := by linarith
  obtain ⟨k1, k2, k3⟩ := prorate_floor hv hy.le hd hn h2
  rw [C52_epsilon.1]
  have hn' : 0 < value x + value d := by linarith
  rw [e1] at k2 k3
  refine ⟨e1, e3, k1, ?_, (le_div_iff₀ hn').2 k2, ?_, ?_⟩
  · nlinarith [mul_pos hx hy]
  · rw [div_lt_iff₀ hn']
    have : (value o + 1 / 10 ^ P * (1 + 1 / (value x + value d))) * (value x + value d) =
        value o * (value x + value d) + (value x + value d + 1) * (1 / 10 ^ P) := by
      field_simp
    rw [this]; exact k3
  · rw [e1, e3]; nlinarith

example := C93_swap (cfg := debugCfg) (by decide) (⟨100⟩ : FP .i64 2) ⟨100⟩ ⟨13⟩ ⟨113⟩ ⟨89⟩ ⟨11⟩
  (by decide +kernel) (by decide +kernel) (by decide +kernel) (by decide +kernel)

/-- C93: no sequence of exchanges, in either direction, lowers the product of the reserves, and both
stay positive. -/
theorem C93_swaps {cfg : Cfg} (hv : Valid cfg L P) (ds : List (Bool × FP L P))
    (hd : ∀ d ∈ ds, 0 ≤ value d.2) (x y x' y' : FP L P) (hx : 0 < value x) (hy : 0 < value y)
    (h : swaps cfg .floor ds (x, y) = .ok (x', y')) :
    0 < value x' ∧ 0 < value y' ∧ value x * value y ≤ value x' * value y' := by
  induction ds generalizing x y with
  | nil =>
    simp only [swaps, Res.ok.injEq, Prod.mk.injEq] at h
    obtain ⟨rfl, rfl⟩ := h
    exact ⟨hx, hy, le_refl _⟩
  | cons d ds ih =>
    have h0 := hd d List.mem_cons_self
    have hd' : ∀ e ∈ ds, 0 ≤ value e.2 := fun e he => hd e (List.mem_cons_of_mem _ he)
    obtain ⟨dir, d⟩ := d
    cases dir with
    | true =>
      obtain ⟨⟨⟨u, v⟩, o⟩, h1, h2⟩ := bind_ok_of h
      obtain ⟨k1, k2, k3, k4, -, -, k7⟩ := C93_swap hv x y d u v o hx hy h0 h1
      dsimp only at h0
      obtain ⟨j1, j2, j3⟩ := ih hd' u v (by linarith) (by linarith) h2
      exact ⟨j1, j2, k7.trans j3⟩
    | false =>
      obtain ⟨⟨⟨u, v⟩, o⟩, h1, h2⟩ := bind_ok_of h
      obtain ⟨k1, k2, k3, k4, -, -, k7⟩ := C93_swap hv y x d u v o hy hx h0 h1
      dsimp only at h0
      obtain ⟨j1, j2, j3⟩ := ih hd' v u (by linarith) (by linarith) h2
      exact ⟨j1, j2, by linarith [mul_comm (value x) (value y), mul_comm (value u) (value v)]⟩

example := C93_swaps (cfg := debugCfg) (by decide) [(true, ⟨13⟩), (false, ⟨11⟩), (true, ⟨40⟩)]
  (by decide +kernel) (⟨100⟩ : FP .i64 2) ⟨100⟩ ⟨141⟩ ⟨72⟩ (by decide +kernel) (by decide +kernel)
  (by decide +kernel)

/-- C93: a trader who restores one of the reserves, by however many exchanges, has not gained any of
the other. -/
theorem C93_no_gain {cfg : Cfg} (hv : Valid cfg L P) (ds : List (Bool × FP L P))
    (hd : ∀ d ∈ ds, 0 ≤ value d.2) (x y x' y' : FP L P) (hx : 0 < value x) (hy : 0 < value y)
    (h : swaps cfg .floor ds (x, y) = .ok (x', y')) :
    (value x' ≤ value x → value y ≤ value y') ∧ (value y' ≤ value y → value x ≤ value x') := by
  obtain ⟨h1, h2, h3⟩ := C93_swaps hv ds hd x y x' y' hx hy h
  constructor
  · intro h
    by_contra hc
    nlinarith [mul_lt_mul_of_pos_left (not_le.1 hc) hx]
  · intro h
    by_contra hc
    nlinarith [mul_lt_mul_of_pos_left (not_le.1 hc) hy]

example := C93_no_gain (cfg := debugCfg) (by decide) [(true, ⟨13⟩), (false, ⟨11⟩), (true, ⟨40⟩)]
  (by decide +kernel) (⟨100⟩ : FP .i64 2) ⟨100⟩ ⟨141⟩ ⟨72⟩ (by decide +kernel) (by decide +kernel)
  (by decide +kernel)

/-- C93 needs the mode: with `Nearest` a trader gains by exchanging back and forth; `0.13` buy `0.12`,
these buy `0.14`. -/
theorem C93_nearest_outside_domain :
    swaps debugCfg .nearest [(true, ⟨13⟩), (false, ⟨12⟩)] ((⟨100⟩, ⟨100⟩) : FP .i64 2 × FP .i64 2) =
      .ok (⟨99⟩, ⟨100⟩) := by decide +kernel

example : swaps debugCfg .floor [(true, ⟨13⟩), (false, ⟨11⟩), (true, ⟨40⟩)]
    ((⟨100⟩, ⟨100⟩) : FP .i64 2 × FP .i64 2) = .ok (⟨141⟩, ⟨72⟩) ∧ Valid debugCfg .i64 2 := by
  decide +kernel

/-! ## C94 -/

/-- What happens to a vault: a deposit of an amount, a redemption of shares. -/
inductive VaultOp (L : Layout) (P : Nat) where
  | deposit (a : FP L P)
  | redeem (s : FP L P)

/-- The number a vault operation is about. -/
def VaultOp.arg : VaultOp L P → FP L P
  | .deposit a => a
  | .redeem s => s

/-- A client: a vault of `(assets, shares)`.  A deposit of `a` creates `a·shares/assets` shares, a
redemption of `s` shares pays `s·assets/shares`.  Not all shares can be redeemed. -/
def vault (cfg : Cfg) (mode : RoundMode) (v : FP L P × FP L P) :
    VaultOp L P → Res ArithErr ((FP L P × FP L P) × FP L P)
  | .deposit a => do
    let s ← prorate cfg a v.2 v.1 mode
    let x ← FP.cadd v.1 a
    let y ← FP.cadd v.2 s
    .ok ((x, y), s)
  | .redeem s =>
    if FP.cmp s v.2 = .lt then do
      let a ← prorate cfg s v.1 v.2 mode
      let x ← FP.csub v.1 a
      let y ← FP.csub v.2 s
      .ok ((x, y), a)
    else .err .overflow

/-- A sequence of vault operations. -/
def vaults (cfg : Cfg) (mode : RoundMode) :
    List (VaultOp L P) → FP L P × FP L P → Res ArithErr (FP L P × FP L P)
  | [], v => .ok v
  | o :: os, v => do
    let r ← vault cfg mode v o
    vaults cfg mode os r.1

/-- C94: a deposit creates at most the exact number of shares, a redemption pays at most the exact
amount; the assets per share do not decrease, and both numbers stay positive. -/
theorem C94_vault {cfg : Cfg} (hv : Valid cfg L P) (x y x' y' out : FP L P) (o : VaultOp L P)
    (hx : 0 < value x) (hy : 0 < value y) (ho : 0 ≤ value o.arg)
    (h : vault cfg .floor (x, y) o = .ok ((x', y'), out)) :
    0 ≤ value out ∧ 0 < value x' ∧ 0 < value y' ∧ value x / value y ≤ value x' / value y' ∧
    (match o with
      | .deposit a => value x' = value x + value a ∧ value y' = value y + value out ∧
          value out ≤ value a * value y / value x
      | .redeem s => value x' = value x - value out ∧ value y' = value y - value s ∧
          value out ≤ value s * value x / value y) := by
  cases o with
  | deposit a =>
    obtain ⟨s, h1, h⟩ := bind_ok_of h
    obtain ⟨u, h2, h⟩ := bind_ok_of h
    obtain ⟨w, h3, h⟩ := bind_ok_of h
    simp only [Res.ok.injEq, Prod.mk.injEq] at h
    obtain ⟨⟨rfl, rfl⟩, rfl⟩ := h
    have e2 := C01_cadd_ok _ _ _ h2
    have e3 := C01_cadd_ok _ _ _ h3
    dsimp only [VaultOp.arg] at e2 e3 h1 ho
    obtain ⟨k1, k2, k3⟩ := prorate_floor hv ho hy.le hx h1
    have hw : 0 < value w := by linarith
    refine ⟨k1, by linarith, hw, ?_, e2, e3, (le_div_iff₀ hx).2 k2⟩
    rw [div_le_div_iff₀ hy hw, e2, e3]
    nlinarith
  | redeem s =>
    unfold vault at h
    dsimp only at h
    split at h
    · rename_i hc
      obtain ⟨a, h1, h⟩ := bind_ok_of h
      obtain ⟨u, h2, h⟩ := bind_ok_of h
      obtain ⟨w, h3, h⟩ := bind_ok_of h
      simp only [Res.ok.injEq, Prod.mk.injEq] at h
      obtain ⟨⟨rfl, rfl⟩, rfl⟩ := h
      have e2 := C02_csub_ok _ _ _ h2
      have e3 := C02_csub_ok _ _ _ h3
      have hs : value s < value y := by
        rwa [C54_cmp, compare_lt_iff_lt] at hc
      dsimp only [VaultOp.arg] at e2 e3 h1 ho
      obtain ⟨k1, k2, k3⟩ := prorate_floor hv ho hx.le hy h1
      have hw : 0 < value w := by linarith
      have hu : value x * value w ≤ value u * value y := by rw [e2, e3]; nlinarith
      have hu0 : 0 < value u := by
        have := mul_pos hx hw
        by_contra hn
        nlinarith [mul_nonneg (by linarith : 0 ≤ -value u) hy.le]
      refine ⟨k1, hu0, hw, ?_, e2, e3, (le_div_iff₀ hy).2 k2⟩
      rw [div_le_div_iff₀ hy hw]
      exact hu
    · cases h

example := C94_vault (cfg := debugCfg) (by decide) (⟨300⟩ : FP .i64 2) ⟨100⟩ ⟨1300⟩ ⟨433⟩ ⟨333⟩
  (.deposit ⟨1000⟩) (by decide +kernel) (by decide +kernel) (by decide +kernel) (by decide +kernel)

/-- C94: no sequence of deposits and redemptions lowers the assets per share. -/
theorem C94_vaults {cfg : Cfg} (hv : Valid cfg L P) (os : List (VaultOp L P))
    (ho : ∀ o ∈ os, 0 ≤ value o.arg) (x y x' y' : FP L P) (hx : 0 < value x) (hy : 0 < value y)
    (h : vaults cfg .floor os (x, y) = .ok (x', y')) :
    0 < value x' ∧ 0 < value y' ∧ value x / value y ≤ value x' / value y' := by
  induction os generalizing x y with
  | nil =>
    simp only [vaults, Res.ok.injEq, Prod.mk.injEq] at h
    obtain ⟨rfl, rfl⟩ := h
    exact ⟨hx, hy, le_refl _⟩
  | cons o os ih =>
    obtain ⟨⟨⟨u, v⟩, out⟩, h1, h2⟩ := bind_ok_of h
    obtain ⟨k1, k2, k3, k4, -⟩ := C94_vault hv x y u v out o hx hy (ho o List.mem_cons_self) h1
    obtain ⟨j1, j2, j3⟩ := ih (fun e he => ho e (List.mem_cons_of_mem _ he)) u v k2 k3 h2
    exact ⟨j1, j2, k4.trans j3⟩

example := C94_vaults (cfg := debugCfg) (by decide) [.deposit ⟨1000⟩, .redeem ⟨333⟩] (by decide +kernel)
  (⟨300⟩ : FP .i64 2) ⟨100⟩ ⟨301⟩ ⟨100⟩ (by decide +kernel) (by decide +kernel) (by decide +kernel)

/-- C94: whoever deposits and at once redeems the shares gets at most the deposit back. -/
theorem C94_no_gain {cfg : Cfg} (hv : Valid cfg L P) (x y u v x' y' a s b : FP L P)
    (hx : 0 < value x) (hy : 0 < value y) (ha : 0 ≤ value a)
    (h1 : vault cfg .floor (x, y) (.deposit a) = .ok ((u, v), s))
    (h2 : vault cfg .floor (u, v) (.redeem s) = .ok ((x', y'), b)) : value b ≤ value a := by
  obtain ⟨k1, k2, k3, -, k5, k6, k7⟩ := C94_vault hv x y u v s (.deposit a) hx hy ha h1
  obtain ⟨j1, -, -, -, -, -, j7⟩ := C94_vault hv u v x' y' b (.redeem s) k2 k3 k1 h2
  rw [le_div_iff₀ k3] at j7
  rw [le_div_iff₀ hx] at k7
  rw [k5, k6] at j7
  by_contra hc
  have : value a * (value y + value s) < value b * (value y + value s) :=
    mul_lt_mul_of_pos_right (not_le.1 hc) (by linarith)
  nlinarith

example := C94_no_gain (cfg := debugCfg) (by decide) (⟨300⟩ : FP .i64 2) ⟨100⟩ ⟨1300⟩ ⟨433⟩ ⟨301⟩ ⟨100⟩
  ⟨1000⟩ ⟨333⟩ ⟨999⟩ (by decide +kernel) (by decide +kernel) (by decide +kernel) (by decide +kernel)
  (by decide +kernel)

/-- C94 needs the mode: rounding up, a deposit of `0.01` creates as many shares as are worth `0.03`. -/
theorem C94_ceil_outside_domain :
    vaults debugCfg .ceil [.deposit ⟨1⟩, .redeem ⟨1⟩] ((⟨300⟩, ⟨100⟩) : FP .i64 2 × FP .i64 2) =
      .ok (⟨297⟩, ⟨100⟩) := by decide +kernel

example : vaults debugCfg .floor [.deposit ⟨1000⟩, .redeem ⟨333⟩]
    ((⟨300⟩, ⟨100⟩) : FP .i64 2 × FP .i64 2) = .ok (⟨301⟩, ⟨100⟩) := by decide +kernel

/-! ## C95 -/

/-- A client: the running mean `m + (x - m)/n` after the `n`-th observation. -/
def observe (cfg : Cfg) (m x : FP L P) (n : BitVec L.bits) (mode : RoundMode) :
    Res ArithErr (FP L P) := do
  let d ← FP.csub x m
  let q ← FP.rdivInt cfg d n mode
  FP.cadd m q

/-- C95: the new mean lies between the old one and the observation, in every mode, and misses the
exact one by less than `EPSILON`. -/
theorem C95_observe (cfg : Cfg) (m x r : FP L P) (n : BitVec L.bits) (mode : RoundMode)
    (hn : 0 < n.toInt) (h : observe cfg m x n mode = .ok r) :
    min (value m) (value x) ≤ value r ∧ value r ≤ max (value m) (value x) ∧
    |value r - (value m + (value x - value m) / n.toInt)| < value (FP.epsilon : FP L P) := by
  obtain ⟨d, h1, h⟩ := bind_ok_of h
  obtain ⟨q, h2, h3⟩ := bind_ok_of h
  have e1 := C02_csub_ok _ _ _ h1
  have e3 := C01_cadd_ok _ _ _ h3
  obtain ⟨-, mo, e2⟩ := rdivInt_some h2
  have hz : value (FP.zero : FP L P) = 0 := C52_zero
  have hq : (1 : ℚ) ≤ (n.toInt : ℚ) := by exact_mod_cast hn
  have hq0 : (0 : ℚ) < n.toInt := by linarith
  have key : min 0 (value d) ≤ value q ∧ value q ≤ max 0 (value d) := by
    rcases le_total 0 (value d) with hd | hd
    · have b := roundTo_within mo FP.zero d (q := value d / (n.toInt : ℚ))
        (by rw [hz]; positivity) (div_le_self hd hq)
      rw [hz, ← e2] at b
      rw [min_eq_left hd, max_eq_right hd]; exact b
    · have b := roundTo_within mo d FP.zero (q := value d / (n.toInt : ℚ))
        (by rw [le_div_iff₀ hq0]; nlinarith) (by rw [hz]; exact div_nonpos_of_nonpos_of_nonneg hd hq0.le)
      rw [hz, ← e2] at b
      rw [min_eq_right hd, max_eq_left hd]; exact b
  refine ⟨?_, ?_, ?_⟩
  · rw [e3]; rw [e1] at key; grind
  · rw [e3]; rw [e1] at key; grind
  · rw [C52_epsilon.1, e3, show value m + value q - (value m + (value x - value m) / (n.toInt : ℚ)) =
      value q - value d / (n.toInt : ℚ) by rw [e1]; ring, e2]
    exact roundTo_error P mo _

example := C95_observe debugCfg (⟨100⟩ : FP .i64 2) ⟨-50⟩ ⟨50⟩ 3 .nearest (by decide) (by decide +kernel)

/-- A client: feed all observations, the `k`-th with the number `k` of its list. -/
def observeAll (cfg : Cfg) (mode : RoundMode) :
    List (FP L P × BitVec L.bits) → FP L P → Res ArithErr (FP L P)
  | [], m => .ok m
  | (x, n) :: xs, m => do
    let r ← observe cfg m x n mode
    observeAll cfg mode xs r

/-- C95: a running mean never leaves the range of the observations. -/
theorem C95_observe_all (cfg : Cfg) (mode : RoundMode) (xs : List (FP L P × BitVec L.bits))
    (hn : ∀ x ∈ xs, 0 < x.2.toInt) (a b m r : FP L P)
    (hab : ∀ x ∈ xs, value a ≤ value x.1 ∧ value x.1 ≤ value b) (hm : value a ≤ value m ∧ value m ≤ value b)
    (h : observeAll cfg mode xs m = .ok r) : value a ≤ value r ∧ value r ≤ value b := by
  induction xs generalizing m with
  | nil => injection h with h; subst h; exact hm
  | cons x xs ih =>
    obtain ⟨x, n⟩ := x
    obtain ⟨q, h1, h2⟩ := bind_ok_of h
    obtain ⟨k1, k2, -⟩ := C95_observe cfg m x q n mode (hn _ List.mem_cons_self) h1
    have hx := hab _ List.mem_cons_self
    dsimp only at hx
    exact ih (fun y hy => hn y (List.mem_cons_of_mem _ hy)) q
      (fun y hy => hab y (List.mem_cons_of_mem _ hy))
      ⟨(le_min hm.1 hx.1).trans k1, k2.trans (max_le hm.2 hx.2)⟩ h2

example := C95_observe_all debugCfg .nearest [(⟨100⟩, 1), (⟨200⟩, 2), (⟨-50⟩, 3)] (by decide +kernel)
  ⟨-50⟩ ⟨200⟩ (⟨0⟩ : FP .i64 2) ⟨83⟩ (by decide +kernel) (by decide +kernel) (by decide +kernel)

/-- C95: the mean exists as soon as the difference does; with `Nearest` for `n` up to half the range. -/
theorem C95_observe_exists (cfg : Cfg) (m x d : FP L P) (n : BitVec L.bits) (mode : RoundMode)
    (hm : mode = .nearest → 2 * n.toInt ≤ rawMax L) (hn : 0 < n.toInt) (hd : FP.csub x m = .ok d) :
    ∃ r, observe cfg m x n mode = .ok r := by
  have e1 := C02_csub_ok _ _ _ hd
  have hz : value (FP.zero : FP L P) = 0 := C52_zero
  have hq : (1 : ℚ) ≤ (n.toInt : ℚ) := by exact_mod_cast hn
  have hq0 : (0 : ℚ) < n.toInt := by linarith
  have hE := rdivInt_exact cfg d n mode hn hm
  have key : Representable L P (roundTo P mode (value d / (n.toInt : ℚ))) ∧
      min 0 (value d) ≤ roundTo P mode (value d / (n.toInt : ℚ)) ∧
      roundTo P mode (value d / (n.toInt : ℚ)) ≤ max 0 (value d) := by
    rcases le_total 0 (value d) with hd | hd
    · have i1 : value (FP.zero : FP L P) ≤ value d / (n.toInt : ℚ) := by rw [hz]; positivity
      have i2 := div_le_self hd hq
      refine ⟨representable_within mode FP.zero d i1 i2, ?_⟩
      have b := roundTo_within mode FP.zero d i1 i2
      rw [hz] at b
      rw [min_eq_left hd, max_eq_right hd]; exact b
    · have i1 : value d ≤ value d / (n.toInt : ℚ) := by rw [le_div_iff₀ hq0]; nlinarith
      have i2 : value d / (n.toInt : ℚ) ≤ value (FP.zero : FP L P) := by
        rw [hz]; exact div_nonpos_of_nonpos_of_nonneg hd hq0.le
      refine ⟨representable_within mode d FP.zero i1 i2, ?_⟩
      have b := roundTo_within mode d FP.zero i1 i2
      rw [hz] at b
      rw [min_eq_right hd, max_eq_left hd]; exact b
  obtain ⟨k0, k1, k2⟩ := key
  obtain ⟨q, h2, e2⟩ := hE.1 k0
  rw [← e2] at k1 k2
  have hrep : Representable L P (value m + value q) := by
    have e : value m + value q = ((m.inner.toInt + q.inner.toInt : Int) : ℚ) / 10 ^ P := by
      unfold value; push_cast; ring
    rw [e1] at k1 k2
    rw [e]
    rcases le_total (value m) (value x) with hmx | hmx
    · exact rep_int_within _ m x (by rw [← e]; grind) (by rw [← e]; grind)
    · exact rep_int_within _ x m (by rw [← e]; grind) (by rw [← e]; grind)
  obtain ⟨r, h3, -⟩ := (C01_cadd_exact m q).1 hrep
  refine ⟨r, ?_⟩
  unfold observe
  rw [hd, ok_bind, h2, ok_bind, h3]

example := C95_observe_exists debugCfg (⟨100⟩ : FP .i64 2) ⟨-50⟩ ⟨-150⟩ 3 .nearest (by decide) (by decide)
  (by decide +kernel)

example : observeAll debugCfg .nearest [(⟨100⟩, 1), (⟨200⟩, 2), (⟨-50⟩, 3)] (⟨0⟩ : FP .i64 2) =
    .ok ⟨83⟩ := by decide +kernel

/-! ## C96 -/

/-- A client: charge a fee of `r` on the amount `a`; what remains and the fee. -/
def charge (cfg : Cfg) (a r : FP L P) : Res ArithErr (FP L P × FP L P) := do
  let f ← FP.rmul cfg a r .ceil
  let n ← FP.csub a f
  .ok (n, f)

/-- C96: for a nonnegative amount and a rate from 0 to 1 charging succeeds; nothing is lost, the fee
is at least the exact one and less than `EPSILON` above it, and the rest is what `rmul` with `Floor`
gives for the complementary rate. -/
theorem C96_charge {cfg : Cfg} (hv : Valid cfg L P) (a r : FP L P) (ha : 0 ≤ value a)
    (hr0 : 0 ≤ value r) (hr : value r ≤ 1) :
    ∃ n f, charge cfg a r = .ok (n, f) ∧ value n + value f = value a ∧ 0 ≤ value n ∧
      value a * value r ≤ value f ∧ value f < value a * value r + value (FP.epsilon : FP L P) ∧
      ∀ c, value c = 1 - value r → FP.rmul cfg a c .floor = .ok n := by
  obtain ⟨f, h1, h2, h3, h4⟩ := rmul_rate hv (mode := .ceil) (by simp) ha hr0 hr
  have b := roundTo_ceil_lt P (value a * value r)
  rw [← h2] at b
  have hrep : Representable L P (value a - value f) := by
    have e : value a - value f = ((a.inner.toInt - f.inner.toInt : Int) : ℚ) / 10 ^ P := by
      unfold value; push_cast; ring
    rw [e]
    exact rep_int_within _ FP.zero a (by rw [← e, C52_zero]; linarith) (by rw [← e]; linarith)
  obtain ⟨n, h5, h6⟩ := (C02_csub_exact a f).1 hrep
  refine ⟨n, f, ?_, by rw [h6]; ring, by rw [h6]; linarith, b.1, by rw [C52_epsilon.1]; exact b.2, ?_⟩
  · unfold charge
    rw [h1, ok_bind, h5, ok_bind]
  · intro c hc
    refine ((C07_rmul_partial hv a c .floor (by simp)).ok_iff n).2 (Eq.symm ?_)
    refine roundTo_floor_of n ?_ ?_
    · rw [hc, h6]; linarith
    · rw [hc, h6]; linarith [b.2]

example := C96_charge (cfg := debugCfg) (by decide) (⟨1001⟩ : FP .i64 2) ⟨3⟩ (by decide +kernel)
  (by decide +kernel) (by decide +kernel)

/-- C96: a larger amount costs no smaller a fee and leaves no less. -/
theorem C96_charge_mono {cfg : Cfg} (hv : Valid cfg L P) (a b r n f n' f' : FP L P)
    (hr0 : 0 ≤ value r) (hr : value r ≤ 1) (hab : value a ≤ value b)
    (h : charge cfg a r = .ok (n, f)) (h' : charge cfg b r = .ok (n', f')) :
    value f ≤ value f' ∧ value n ≤ value n' := by
  obtain ⟨g, h1, h⟩ := bind_ok_of h
  obtain ⟨w, h2, h⟩ := bind_ok_of h
  simp only [Res.ok.injEq, Prod.mk.injEq] at h
  obtain ⟨rfl, rfl⟩ := h
  obtain ⟨g', h1', h'⟩ := bind_ok_of h'
  obtain ⟨w', h2', h'⟩ := bind_ok_of h'
  simp only [Res.ok.injEq, Prod.mk.injEq] at h'
  obtain ⟨rfl, rfl⟩ := h'
  have e1 := ((C07_rmul_partial hv a r .ceil (by simp)).ok_iff g).1 h1
  have e1' := ((C07_rmul_partial hv b r .ceil (by simp)).ok_iff g').1 h1'
  have e2 := C02_csub_ok _ _ _ h2
  have e2' := C02_csub_ok _ _ _ h2'
  refine ⟨by rw [e1, e1']; exact roundTo_mono P .ceil (mul_le_mul_of_nonneg_right hab hr0), ?_⟩
  -- `b·r ≤ a·r + (b - a)`, and `b - a` is a number of the type's precision
  have hs := (roundTo_ceil_spec P (value b * value r)).2
    (g.inner.toInt + b.inner.toInt - a.inner.toInt) (by
      have i1 := (roundTo_ceil_lt P (value a * value r)).1
      rw [← e1] at i1
      have e : ((g.inner.toInt + b.inner.toInt - a.inner.toInt : Int) : ℚ) / 10 ^ P =
        value g + value b - value a := by unfold value; push_cast; ring
      rw [e]
      nlinarith)
  rw [← e1'] at hs
  have e : ((g.inner.toInt + b.inner.toInt - a.inner.toInt : Int) : ℚ) / 10 ^ P =
    value g + value b - value a := by unfold value; push_cast; ring
  rw [e] at hs
  linarith

example := C96_charge_mono (cfg := debugCfg) (by decide) (⟨501⟩ : FP .i64 2) ⟨1001⟩ ⟨3⟩ ⟨485⟩ ⟨16⟩ ⟨970⟩
  ⟨31⟩ (by decide +kernel) (by decide +kernel) (by decide +kernel) (by decide +kernel)
  (by decide +kernel)

/-- C96: splitting a payment never lowers the fee, and raises it by at most `EPSILON`. -/
theorem C96_charge_split {cfg : Cfg} (hv : Valid cfg L P) (a b c r n f n' f' k g : FP L P)
    (hc : value c = value a + value b)
    (h : charge cfg a r = .ok (n, f)) (h' : charge cfg b r = .ok (n', f'))
    (hs : charge cfg c r = .ok (k, g)) :
    value g ≤ value f + value f' ∧ value f + value f' - value g ≤ value (FP.epsilon : FP L P) ∧
    value n + value n' ≤ value k := by
  obtain ⟨f0, h1, h⟩ := bind_ok_of h
  obtain ⟨w, h2, h⟩ := bind_ok_of h
  simp only [Res.ok.injEq, Prod.mk.injEq] at h
  obtain ⟨rfl, rfl⟩ := h
  obtain ⟨f0', h1', h'⟩ := bind_ok_of h'
  obtain ⟨w', h2', h'⟩ := bind_ok_of h'
  simp only [Res.ok.injEq, Prod.mk.injEq] at h'
  obtain ⟨rfl, rfl⟩ := h'
  obtain ⟨g0, j1, hs⟩ := bind_ok_of hs
  obtain ⟨w'', j2, hs⟩ := bind_ok_of hs
  simp only [Res.ok.injEq, Prod.mk.injEq] at hs
  obtain ⟨rfl, rfl⟩ := hs
  have e1 := ((C07_rmul_partial hv a r .ceil (by simp)).ok_iff _).1 h1
  have e1' := ((C07_rmul_partial hv b r .ceil (by simp)).ok_iff _).1 h1'
  have e1'' := ((C07_rmul_partial hv c r .ceil (by simp)).ok_iff _).1 j1
  have e2 := C02_csub_ok _ _ _ h2
  have e2' := C02_csub_ok _ _ _ h2'
  have e2'' := C02_csub_ok _ _ _ j2
  have hb := roundTo_ceil_add (P := P) (value a * value r) (value b * value r)
  rw [← add_mul, ← hc, ← e1, ← e1', ← e1''] at hb
  rw [C52_epsilon.1]
  exact ⟨by linarith [hb.2], by linarith [hb.1], by linarith [hb.2]⟩

example := C96_charge_split (cfg := debugCfg) (by decide) (⟨501⟩ : FP .i64 2) ⟨500⟩ ⟨1001⟩ ⟨3⟩ ⟨485⟩ ⟨16⟩ ⟨485⟩ ⟨15⟩
  ⟨970⟩ ⟨31⟩ (by decide +kernel) (by decide +kernel) (by decide +kernel) (by decide +kernel)

example : charge debugCfg (⟨1001⟩ : FP .i64 2) ⟨3⟩ = .ok (⟨970⟩, ⟨31⟩) ∧
    charge debugCfg (⟨501⟩ : FP .i64 2) ⟨3⟩ = .ok (⟨485⟩, ⟨16⟩) ∧
    charge debugCfg (⟨500⟩ : FP .i64 2) ⟨3⟩ = .ok (⟨485⟩, ⟨15⟩) := by decide +kernel

/-! ## C97 -/

/-- A client: interest of `r` credited `n` times. -/
def compound (cfg : Cfg) (mode : RoundMode) (r : FP L P) : Nat → FP L P → Res ArithErr (FP L P)
  | 0, x => .ok x
  | n + 1, x => do
    let i ← FP.rmul cfg x r mode
    let y ← FP.cadd x i
    compound cfg mode r n y

/-- C97: with `Floor` the balance is at most the exact one, with `Ceil` at least; in every mode
the error is at most what `EPSILON` for each step amounts to with interest. -/
theorem C97_compound {cfg : Cfg} (hv : Valid cfg L P) (mode : RoundMode) (r : FP L P)
    (hr : 0 ≤ value r) (n : Nat) (x y : FP L P) (h : compound cfg mode r n x = .ok y) :
    |value y - value x * (1 + value r) ^ n| ≤
      value (FP.epsilon : FP L P) * ∑ i ∈ Finset.range n, (1 + value r) ^ i ∧
    (mode = .floor → value y ≤ value x * (1 + value r) ^ n) ∧
    (mode = .ceil → value x * (1 + value r) ^ n ≤ value y) := by
  have hp := ten_pow_pos P
  rw [C52_epsilon.1]
  induction n generalizing x with
  | zero => injection h with h; subst h; simp
  | succ n ih =>
    obtain ⟨i, h1, h⟩ := bind_ok_of h
    obtain ⟨z, h2, h3⟩ := bind_ok_of h
    have e2 := C01_cadd_ok _ _ _ h2
    obtain ⟨mo, e1⟩ := rmul_some hv h1
    have b := roundTo_error P mo (value x * value r)
    rw [← e1] at b
    obtain ⟨j1, j2, j3⟩ := ih z h3
    have hpow : (0 : ℚ) < (1 + value r) ^ n := by positivity
    have ez : value y - value x * (1 + value r) ^ (n + 1) =
        (value y - value z * (1 + value r) ^ n) +
          (value i - value x * value r) * (1 + value r) ^ n := by
      rw [e2, pow_succ]; ring
    refine ⟨?_, ?_, ?_⟩
    · rw [ez, Finset.sum_range_succ, mul_add]
      refine (abs_add_le _ _).trans (add_le_add j1 ?_)
      rw [abs_mul, abs_of_pos hpow]
      exact mul_le_mul_of_nonneg_right b.le hpow.le
    · rintro rfl
      have e := ((C07_rmul_partial hv x r .floor (by simp)).ok_iff i).1 h1
      have hb := (roundTo_floor_lt P (value x * value r)).1
      rw [← e] at hb
      refine (j2 rfl).trans ?_
      rw [pow_succ, e2]
      nlinarith
    · rintro rfl
      have e := ((C07_rmul_partial hv x r .ceil (by simp)).ok_iff i).1 h1
      have hb := (roundTo_ceil_lt P (value x * value r)).1
      rw [← e] at hb
      refine le_trans ?_ (j3 rfl)
      rw [pow_succ, e2]
      nlinarith

example := C97_compound (cfg := debugCfg) (by decide) .floor (⟨3⟩ : FP .i64 2) (by decide +kernel) 4
  ⟨10000⟩ ⟨11254⟩ (by decide +kernel)

/-- C97: crediting more often, or at a higher rate, or on a larger balance, never gives less
(nonnegative balances). -/
theorem C97_compound_mono {cfg : Cfg} (hv : Valid cfg L P) (mode : RoundMode)
    (hm : mode = .nearest → ¬ (L = .i128 ∧ P = 38))
    (r s : FP L P) (hr : 0 ≤ value r) (hrs : value r ≤ value s) (n : Nat) (x x' y y' : FP L P)
    (hx : 0 ≤ value x) (hxx : value x ≤ value x') (h : compound cfg mode r n x = .ok y)
    (h' : compound cfg mode s n x' = .ok y') : value x ≤ value y ∧ value y ≤ value y' := by
  induction n generalizing x x' with
  | zero =>
    injection h with h; subst h; injection h' with h'; subst h'
    exact ⟨le_refl _, hxx⟩
  | succ n ih =>
    obtain ⟨i, h1, h⟩ := bind_ok_of h
    obtain ⟨z, h2, h3⟩ := bind_ok_of h
    obtain ⟨i', h1', h'⟩ := bind_ok_of h'
    obtain ⟨z', h2', h3'⟩ := bind_ok_of h'
    have e1 := ((C07_rmul_partial hv x r mode hm).ok_iff i).1 h1
    have e1' := ((C07_rmul_partial hv x' s mode hm).ok_iff i').1 h1'
    have e2 := C01_cadd_ok _ _ _ h2
    have e2' := C01_cadd_ok _ _ _ h2'
    have hi : 0 ≤ value i := by rw [e1]; exact roundTo_nonneg P mode (mul_nonneg hx hr)
    have hii : value i ≤ value i' := by
      rw [e1, e1']
      exact roundTo_mono P mode (mul_le_mul hxx hrs hr (hx.trans hxx))
    obtain ⟨k1, k2⟩ := ih z z' (by linarith) (by linarith) h3 h3'
    exact ⟨by linarith, k2⟩

example := C97_compound_mono (cfg := debugCfg) (by decide) .ceil (by decide) (⟨3⟩ : FP .i64 2) ⟨3⟩ (by decide +kernel)
  (by decide +kernel) 4 ⟨10000⟩ ⟨10000⟩ ⟨11256⟩ ⟨11256⟩ (by decide +kernel) (by decide +kernel) (by decide +kernel)
  (by decide +kernel)

/-- `100.00` at `3%`, four times: `112.5508…` exactly. -/
example : compound debugCfg .floor (⟨3⟩ : FP .i64 2) 4 ⟨10000⟩ = .ok ⟨11254⟩ ∧
    compound debugCfg .ceil (⟨3⟩ : FP .i64 2) 4 ⟨10000⟩ = .ok ⟨11256⟩ := by decide +kernel

end Fixnum
