import Verif.Props.Trading
import Verif.Props.Derived

/-! # Property C138: a limit on the rate of requests

Client code: tokens flow into a bucket of limited capacity at a constant rate; a request costs tokens, and is
refused if there are not enough. -/

namespace Fixnum

open Res Spec

variable {L : Layout} {P : Nat}

/-- The tokens at time `now`, if there were `tokens` at time `last`:
`tokens.cadd((now.csub(last)?).rmul(rate, mode)?)?.min(cap)`. -/
def refill (cfg : Cfg) (mode : RoundMode) (cap rate tokens last now : FP L P) : Res ArithErr (FP L P) := do
  let dt ← FP.csub now last
  let inc ← FP.rmul cfg dt rate mode
  let sum ← FP.cadd tokens inc
  .ok (FP.ordMin sum cap)

/-- The client: requests `(now, cost)`, one after the other.  Which of them are granted, and the tokens left. -/
def bucket (cfg : Cfg) (mode : RoundMode) (cap rate : FP L P) :
    FP L P → FP L P → List (FP L P × FP L P) → Res ArithErr (List Bool × FP L P)
  | tokens, _, [] => .ok ([], tokens)
  | tokens, last, (now, cost) :: es => do
    let full ← refill cfg mode cap rate tokens last now
    if FP.cmp full cost = .lt then do
      let (gs, r) ← bucket cfg mode cap rate full now es
      .ok (false :: gs, r)
    else do
      let left ← FP.csub full cost
      let (gs, r) ← bucket cfg mode cap rate left now es
      .ok (true :: gs, r)

/-- The sum of the costs of the requests that were granted. -/
def Spec.granted (es : List (FP L P × FP L P)) (gs : List Bool) : ℚ :=
  ((es.zip gs).map fun x => if x.2 then value x.1.2 else 0).sum

/-- The time of the last request. -/
def Spec.endTime : ℚ → List (FP L P × FP L P) → ℚ
  | t, [] => t
  | _, e :: es => endTime (value e.1) es

/-- The times do not decrease, and no cost is negative. -/
def Spec.InOrder : ℚ → List (FP L P × FP L P) → Prop
  | _, [] => True
  | t, e :: es => t ≤ value e.1 ∧ 0 ≤ value e.2 ∧ InOrder (value e.1) es

theorem endTime_ge {t : ℚ} {es : List (FP L P × FP L P)} (h : InOrder t es) : t ≤ endTime t es := by
  induction es generalizing t with
  | nil => exact le_refl _
  | cons e es ih => exact h.1.trans (ih h.2.2)

theorem granted_nil (gs : List Bool) : granted ([] : List (FP L P × FP L P)) gs = 0 := by
  simp [granted]

theorem granted_cons (e : FP L P × FP L P) (es : List (FP L P × FP L P)) (g : Bool) (gs : List Bool) :
    granted (e :: es) (g :: gs) = (if g then value e.2 else 0) + granted es gs := by
  simp [granted]

theorem refill_value {cfg : Cfg} (hv : Valid cfg L P) {mode : RoundMode} (hm : mode ≠ .nearest)
    {cap rate tokens last now r : FP L P} (h : refill cfg mode cap rate tokens last now = .ok r) :
    value r = min (value tokens + roundTo P mode ((value now - value last) * value rate)) (value cap) := by
  unfold refill at h
  obtain ⟨d, h1, h⟩ := bind_ok_of h
  obtain ⟨i, h2, h⟩ := bind_ok_of h
  obtain ⟨s, h3, h⟩ := bind_ok_of h
  cases h
  rw [(C54_max_min s cap).2, C01_cadd_ok _ _ _ h3,
    ((C07_rmul_partial hv d rate mode fun e => absurd e hm).ok_iff i).1 h2, C02_csub_ok _ _ _ h1]

/-- One request. -/
theorem bucket_cons {cfg : Cfg} {mode : RoundMode} {cap rate tokens last now cost r : FP L P}
    {es : List (FP L P × FP L P)} {gs : List Bool}
    (h : bucket cfg mode cap rate tokens last ((now, cost) :: es) = .ok (gs, r)) :
    ∃ full left g gs', refill cfg mode cap rate tokens last now = .ok full ∧ gs = g :: gs' ∧
      (g = true ↔ value cost ≤ value full) ∧
      value left = value full - (if g then value cost else 0) ∧
      bucket cfg mode cap rate left now es = .ok (gs', r) := by
  unfold bucket at h
  obtain ⟨full, h1, h⟩ := bind_ok_of h
  split at h
  · rename_i k
    rw [C54_cmp, compare_lt_iff_lt] at k
    obtain ⟨⟨gs', r'⟩, h2, h⟩ := bind_ok_of h
    cases h
    exact ⟨full, full, false, gs', h1, rfl, by simpa using k, by simp, h2⟩
  · rename_i k
    rw [C54_cmp, compare_lt_iff_lt, not_lt] at k
    obtain ⟨left, h2, h⟩ := bind_ok_of h
    obtain ⟨⟨gs', r'⟩, h3, h⟩ := bind_ok_of h
    cases h
    exact ⟨full, left, true, gs', h1, rfl, by simpa using k, by simpa using C02_csub_ok _ _ _ h2, h3⟩

/-- C138: a request is granted if and only if it costs no more than what is in the bucket: the tokens before
and what has flowed in since, rounded, but no more than the capacity.  Its cost is taken if it is granted, and
nothing otherwise. -/
theorem C138_request {cfg : Cfg} (hv : Valid cfg L P) (mode : RoundMode) (hm : mode ≠ .nearest)
    (cap rate tokens last now cost r : FP L P) (g : Bool)
    (h : bucket cfg mode cap rate tokens last [(now, cost)] = .ok ([g], r)) :
    (g = true ↔ value cost ≤
      min (value tokens + roundTo P mode ((value now - value last) * value rate)) (value cap)) ∧
    value r = min (value tokens + roundTo P mode ((value now - value last) * value rate)) (value cap) -
      (if g then value cost else 0) := by
  obtain ⟨full, left, g', gs', h1, h2, h3, h4, h5⟩ := bucket_cons h
  cases h2
  cases h5
  rw [← refill_value hv hm h1]
  exact ⟨h3, h4⟩

/-- C138: with `Floor` the requests granted cost no more than the tokens at the beginning and what flows in,
exactly, up to the last of them; there are never fewer than no tokens nor more than the capacity. -/
theorem C138_limit {cfg : Cfg} (hv : Valid cfg L P) (cap rate : FP L P) (hr : 0 ≤ value rate)
    (es : List (FP L P × FP L P)) (tokens last r : FP L P) (gs : List Bool) (h0 : 0 ≤ value tokens)
    (hc : value tokens ≤ value cap) (ho : InOrder (value last) es)
    (h : bucket cfg .floor cap rate tokens last es = .ok (gs, r)) :
    gs.length = es.length ∧ 0 ≤ value r ∧ value r ≤ value cap ∧
    granted es gs + value r ≤ value tokens + value rate * (endTime (value last) es - value last) := by
  induction es generalizing tokens last gs with
  | nil =>
    cases h
    rw [granted_nil]
    exact ⟨rfl, h0, hc, by simp [endTime]⟩
  | cons e es ih =>
    obtain ⟨now, cost⟩ := e
    obtain ⟨o1, o2, o3⟩ := ho
    simp only at o1 o2 o3
    obtain ⟨full, left, g, gs', h1, rfl, h3, h4, h5⟩ := bucket_cons h
    have e1 := refill_value hv (by simp) h1
    have p0 : 0 ≤ (value now - value last) * value rate := mul_nonneg (by linarith) hr
    have f1 := (roundTo_floor_lt P ((value now - value last) * value rate)).1
    have f2 := roundTo_nonneg P .floor p0
    have a1 : value full ≤ value tokens + (value now - value last) * value rate := by
      rw [e1]; exact (min_le_left _ _).trans (by linarith)
    have a2 : value full ≤ value cap := by rw [e1]; exact min_le_right _ _
    have a3 : 0 ≤ value full := by rw [e1]; exact le_min (by linarith) (h0.trans hc)
    have a4 : 0 ≤ (if g then value cost else 0) := by split <;> [exact o2; exact le_refl _]
    have a5 : (if g then value cost else 0) ≤ value full := by
      split
      · rename_i k; exact h3.1 k
      · exact a3
    obtain ⟨k1, k2, k3, k4⟩ := ih left now gs' (by linarith) (by linarith) o3 h5
    refine ⟨by simp [k1], k2, k3, ?_⟩
    rw [granted_cons]
    simp only [endTime]
    linarith

-- capacity 2.00, 0.50 a second: at 1.00 a request of 2.00, then one of 1.00 which is refused, and at 3.50 again
example : bucket debugCfg .floor (⟨200⟩ : FP .i64 2) ⟨50⟩ ⟨200⟩ ⟨0⟩ [(⟨100⟩, ⟨200⟩), (⟨101⟩, ⟨100⟩), (⟨350⟩, ⟨100⟩)] =
    .ok ([true, false, true], ⟨24⟩) := by decide +kernel
example := C138_request (cfg := debugCfg) (by decide) .floor (by simp) (⟨200⟩ : FP .i64 2) ⟨50⟩ ⟨100⟩ ⟨0⟩ ⟨101⟩
  ⟨150⟩ ⟨0⟩ true (by decide +kernel)
example := C138_limit (cfg := debugCfg) (by decide) (⟨200⟩ : FP .i64 2) ⟨50⟩ (by decide +kernel)
  [(⟨100⟩, ⟨200⟩), (⟨101⟩, ⟨100⟩), (⟨350⟩, ⟨100⟩)] ⟨200⟩ ⟨0⟩ ⟨24⟩ [true, false, true] (by decide +kernel)
  (by decide +kernel) (by simp only [InOrder]; decide +kernel) (by decide +kernel)

/-- C138: in any stretch of the requests, what is granted costs no more than the capacity and what flows in
during the stretch. -/
theorem C138_window {cfg : Cfg} (hv : Valid cfg L P) (cap rate : FP L P) (hr : 0 ≤ value rate)
    (es fs : List (FP L P × FP L P)) (tokens last r : FP L P) (gs : List Bool) (h0 : 0 ≤ value tokens)
    (hc : value tokens ≤ value cap) (ho : InOrder (value last) (es ++ fs))
    (h : bucket cfg .floor cap rate tokens last (es ++ fs) = .ok (gs, r)) :
    granted fs (gs.drop es.length) ≤
      value cap + value rate * (endTime (value last) (es ++ fs) - endTime (value last) es) := by
  induction es generalizing tokens last gs with
  | nil =>
    obtain ⟨-, k2, -, k4⟩ := C138_limit hv cap rate hr fs tokens last r gs h0 hc ho h
    simp only [List.nil_append, List.length_nil, List.drop_zero, endTime]
    linarith
  | cons e es ih =>
    obtain ⟨now, cost⟩ := e
    obtain ⟨o1, o2, o3⟩ := ho
    simp only at o1 o2 o3
    obtain ⟨full, left, g, gs', h1, rfl, h3, h4, h5⟩ := bucket_cons h
    have e1 := refill_value hv (by simp) h1
    have f2 := roundTo_nonneg P .floor (mul_nonneg (sub_nonneg.2 o1) hr)
    have a2 : value full ≤ value cap := by rw [e1]; exact min_le_right _ _
    have a3 : 0 ≤ value full := by rw [e1]; exact le_min (by linarith) (h0.trans hc)
    have a4 : 0 ≤ (if g then value cost else 0) := by split <;> [exact o2; exact le_refl _]
    have a5 : (if g then value cost else 0) ≤ value full := by
      split
      · rename_i k; exact h3.1 k
      · exact a3
    exact ih left now gs' (by linarith) (by linarith) o3 h5

example := C138_window (cfg := debugCfg) (by decide) (⟨200⟩ : FP .i64 2) ⟨50⟩ (by decide +kernel)
  [(⟨100⟩, ⟨200⟩)] [(⟨101⟩, ⟨100⟩), (⟨350⟩, ⟨100⟩)] ⟨200⟩ ⟨0⟩ ⟨24⟩ [true, false, true] (by decide +kernel)
  (by decide +kernel) (by simp only [List.cons_append, List.nil_append, InOrder]; decide +kernel)
  (by decide +kernel)

/-- The steps between the requests are so short that less than one unit in the last place flows in. -/
def Spec.Short (rate : FP L P) : ℚ → List (FP L P × FP L P) → Prop
  | _, [] => True
  | t, e :: es => (value e.1 - t) * value rate < value (FP.epsilon : FP L P) ∧ Short rate (value e.1) es

/-- C138: with `Floor`, if the requests follow each other so closely that less than `EPSILON` flows in between
two of them, nothing flows in at all, over however long a time. -/
theorem C138_starved {cfg : Cfg} (hv : Valid cfg L P) (cap rate : FP L P) (hr : 0 ≤ value rate)
    (es : List (FP L P × FP L P)) (tokens last r : FP L P) (gs : List Bool)
    (hc : value tokens ≤ value cap) (ho : InOrder (value last) es) (hs : Short rate (value last) es)
    (h : bucket cfg .floor cap rate tokens last es = .ok (gs, r)) :
    granted es gs + value r = value tokens := by
  induction es generalizing tokens last gs with
  | nil =>
    cases h
    rw [granted_nil, zero_add]
  | cons e es ih =>
    obtain ⟨now, cost⟩ := e
    obtain ⟨o1, o2, o3⟩ := ho
    obtain ⟨s1, s2⟩ := hs
    simp only at o1 o2 o3 s1 s2
    obtain ⟨full, left, g, gs', h1, rfl, h3, h4, h5⟩ := bucket_cons h
    have e1 := refill_value hv (by simp) h1
    have z : roundTo P .floor ((value now - value last) * value rate) = 0 := by
      have hz : value (FP.zero : FP L P) = 0 := C52_zero
      rw [C52_epsilon.1] at s1
      rw [← hz]
      exact roundTo_floor_of FP.zero (by rw [hz]; exact mul_nonneg (by linarith) hr) (by rw [hz]; linarith)
    rw [z, add_zero, min_eq_left hc] at e1
    have a4 : 0 ≤ (if g then value cost else 0) := by split <;> [exact o2; exact le_refl _]
    have k := ih left now gs' (by linarith) o3 s2 h5
    rw [granted_cons, h4, e1] at *
    linarith

-- ten requests in 0.10 s at 0.50 a second
example : bucket debugCfg .floor (⟨200⟩ : FP .i64 2) ⟨50⟩ ⟨0⟩ ⟨0⟩
    ((List.range 10).map fun i => (⟨BitVec.ofNat 64 i⟩, ⟨1⟩)) = .ok (List.replicate 10 false, ⟨0⟩) := by
  decide +kernel
example := C138_starved (cfg := debugCfg) (by decide) (⟨200⟩ : FP .i64 2) ⟨50⟩ (by decide +kernel)
  [(⟨1⟩, ⟨1⟩), (⟨2⟩, ⟨1⟩)] ⟨1⟩ ⟨0⟩ ⟨0⟩ [true, false] (by decide +kernel)
  (by simp only [InOrder]; decide +kernel) (by simp only [Short]; decide +kernel) (by decide +kernel)

/-- C138: with `Ceil` the limit does not hold: three requests within 0.03 s of 0.01 each, of which 0.015 flow in. -/
theorem C138_ceil_outside_domain :
    bucket debugCfg .ceil (⟨200⟩ : FP .i64 2) ⟨50⟩ ⟨0⟩ ⟨0⟩ [(⟨1⟩, ⟨1⟩), (⟨2⟩, ⟨1⟩), (⟨3⟩, ⟨1⟩)] =
      .ok ([true, true, true], ⟨0⟩) := by decide +kernel

/-- C138: no request fails if the times are not negative and the range holds the capacity and what flows in
altogether. -/
theorem C138_returns {cfg : Cfg} (hv : Valid cfg L P) (cap rate : FP L P) (hr : 0 ≤ value rate)
    (es : List (FP L P × FP L P)) (tokens last : FP L P) (h0 : 0 ≤ value tokens)
    (hc : value tokens ≤ value cap) (ht : 0 ≤ value last) (ho : InOrder (value last) es)
    (hM : value cap + value rate * (endTime (value last) es - value last) ≤ maxValue L P) :
    ∃ x, bucket cfg .floor cap rate tokens last es = .ok x := by
  have hz : value (FP.zero : FP L P) = 0 := C52_zero
  have hMax : value (FP.max : FP L P) = maxValue L P := C52_bounds_value.2
  induction es generalizing tokens last with
  | nil => exact ⟨_, rfl⟩
  | cons e es ih =>
    obtain ⟨now, cost⟩ := e
    obtain ⟨o1, o2, o3⟩ := ho
    simp only [endTime] at o1 o2 o3 hM
    have ge := endTime_ge o3
    have p0 : 0 ≤ (value now - value last) * value rate := mul_nonneg (by linarith) hr
    have p1 : value rate * (value now - value last) ≤
        value rate * (endTime (value now) es - value last) := mul_le_mul_of_nonneg_left (by linarith) hr
    obtain ⟨d, k1, e1⟩ := (C02_csub_exact now last).1 (representable_sub_nonneg (ht.trans o1) ht)
    obtain ⟨i, k2, e2⟩ := (C07_rmul_partial hv d rate .floor (by simp)).1
      (representable_within .floor FP.zero FP.max (by rw [hz, e1]; exact p0)
        (by rw [hMax, e1]; linarith))
    have f1 := (roundTo_floor_lt P ((value now - value last) * value rate)).1
    have f2 := roundTo_nonneg P .floor p0
    rw [e1] at e2
    rw [← e2] at f1 f2
    obtain ⟨s, k3, e3⟩ := (C01_cadd_exact tokens i).1 (representable_add_le (by linarith) (by linarith))
    have k4 : refill cfg .floor cap rate tokens last now = .ok (FP.ordMin s cap) := by
      unfold refill; rw [k1, ok_bind, k2, ok_bind, k3]; rfl
    have e4 := (C54_max_min s cap).2
    have a2 : value (FP.ordMin s cap) ≤ value cap := by rw [e4]; exact min_le_right _ _
    have a3 : 0 ≤ value (FP.ordMin s cap) := by rw [e4]; exact le_min (by linarith) (h0.trans hc)
    have hM' : value cap + value rate * (endTime (value now) es - value now) ≤ maxValue L P := by
      have : value rate * (endTime (value now) es - value now) ≤
        value rate * (endTime (value now) es - value last) := mul_le_mul_of_nonneg_left (by linarith) hr
      linarith
    unfold bucket
    rw [k4, ok_bind]
    split
    · obtain ⟨x, k⟩ := ih (FP.ordMin s cap) now a3 a2 (ht.trans o1) o3 hM'
      exact ⟨(false :: x.1, x.2), by rw [k]; rfl⟩
    · rename_i k
      rw [C54_cmp, compare_lt_iff_lt, not_lt] at k
      obtain ⟨l, k5, e5⟩ := (C02_csub_exact (FP.ordMin s cap) cost).1 (representable_sub_nonneg a3 o2)
      obtain ⟨x, k6⟩ := ih l now (by linarith) (by linarith) (ht.trans o1) o3 hM'
      exact ⟨(true :: x.1, x.2), by rw [k5, ok_bind, k6]; rfl⟩

example := C138_returns (cfg := debugCfg) (by decide) (⟨200⟩ : FP .i64 2) ⟨50⟩ (by decide +kernel)
  [(⟨100⟩, ⟨200⟩), (⟨101⟩, ⟨100⟩), (⟨350⟩, ⟨100⟩)] ⟨200⟩ ⟨0⟩ (by decide +kernel)
  (by decide +kernel) (by decide +kernel) (by simp only [InOrder]; decide +kernel)
  (by simp only [endTime]; decide +kernel)

end Fixnum
