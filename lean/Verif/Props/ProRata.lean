import Verif.Props.WeightedMean
import Verif.Props.Balances
import Verif.Props.Clients
import Verif.Props.Power
import Verif.Props.Exact

/-! # Property C123: sharing out in proportion

Client code: an amount is shared out among parties in proportion to their weights, each share being
`amount.rmul(weight, Floor)?.rdiv(total, Floor)?` and taken off what is left. -/

namespace Fixnum

open Res Spec

variable {L : Layout} {P : Nat}

/-- The loop of the client: the shares, and what is left. -/
def shareOut (cfg : Cfg) (x t : FP L P) :
    List (FP L P) → FP L P → Res ArithErr (List (FP L P) × FP L P)
  | [], rest => .ok ([], rest)
  | w :: ws, rest => do
    let p ← FP.rmul cfg x w .floor
    let s ← FP.rdiv cfg p t .floor
    let rest ← FP.csub rest s
    let (ss, r) ← shareOut cfg x t ws rest
    .ok (s :: ss, r)

/-- The client. -/
def proRata (cfg : Cfg) (x : FP L P) (ws : List (FP L P)) : Res ArithErr (List (FP L P) × FP L P) := do
  let t ← total ws
  shareOut cfg x t ws x

/-- The sum of the numbers in a list. -/
def Spec.sumOf (ws : List (FP L P)) : ℚ := (ws.map value).sum

/-- A share as a function of the numbers. -/
def shareOf (P : Nat) (x t w : ℚ) : ℚ := roundTo P .floor (roundTo P .floor (x * w) / t)

theorem shareOut_spec {cfg : Cfg} (hv : Valid cfg L P) {x t : FP L P} (ht : value t ≠ 0) :
    ∀ (ws : List (FP L P)) (rest r : FP L P) (ss : List (FP L P)),
    shareOut cfg x t ws rest = .ok (ss, r) →
    List.Forall₂ (fun w s => value s = shareOf P (value x) (value t) (value w)) ws ss ∧
      value r = value rest - sumOf ss := by
  intro ws
  induction ws with
  | nil =>
    intro rest r ss h
    unfold shareOut at h
    cases h
    exact ⟨.nil, by simp [sumOf]⟩
  | cons w ws ih =>
    intro rest r ss h
    unfold shareOut at h
    obtain ⟨p, h1, h⟩ := bind_ok_of h
    obtain ⟨s, h2, h⟩ := bind_ok_of h
    obtain ⟨rest', h3, h⟩ := bind_ok_of h
    obtain ⟨⟨ss', r'⟩, h4, h⟩ := bind_ok_of h
    cases h
    obtain ⟨k1, k2⟩ := ih _ _ _ h4
    have e1 := rmul_checked_value hv (.inl (by simp)) h1
    have e2 := ((C10_rdiv_directed hv p t _ (by simp) ht).ok_iff _).1 h2
    refine ⟨.cons ?_ k1, ?_⟩
    · rw [e2, e1]; rfl
    · rw [k2, C02_csub_ok _ _ _ h3]
      simp only [sumOf, List.map_cons, List.sum_cons]
      ring

theorem shareOf_bounds {x t w : ℚ} (hx : 0 ≤ x) (ht : 0 < t) (hw : 0 ≤ w) :
    0 ≤ shareOf P x t w ∧ shareOf P x t w ≤ x * w / t ∧
      x * w / t - shareOf P x t w < (1 + 1 / t) / 10 ^ P := by
  have h1 := (roundTo_floor_spec P (x * w)).1
  have h2 := roundTo_floor_gap P (x * w)
  have h3 := (roundTo_floor_spec P (roundTo P .floor (x * w) / t)).1
  have h4 := roundTo_floor_gap P (roundTo P .floor (x * w) / t)
  have h5 : roundTo P .floor (x * w) / t ≤ x * w / t := (div_le_div_iff_of_pos_right ht).2 h1
  have h6 : x * w / t - roundTo P .floor (x * w) / t < 1 / t / 10 ^ P := by
    rw [← sub_div, div_right_comm, div_lt_div_iff_of_pos_right ht]
    exact h2
  refine ⟨roundTo_nonneg P _ (div_nonneg (roundTo_nonneg P _ (mul_nonneg hx hw)) ht.le),
    h3.trans h5, ?_⟩
  have e : (1 + 1 / t) / 10 ^ P = 1 / 10 ^ P + 1 / t / 10 ^ P := by ring
  unfold shareOf
  rw [e]
  linarith

theorem shareOf_mono {x t v w : ℚ} (hx : 0 ≤ x) (ht : 0 < t) (h : v ≤ w) :
    shareOf P x t v ≤ shareOf P x t w :=
  roundTo_mono P _ ((div_le_div_iff_of_pos_right ht).2
    (roundTo_mono P _ (mul_le_mul_of_nonneg_left h hx)))

theorem sumOf_cons (w : FP L P) (ws : List (FP L P)) : sumOf (w :: ws) = value w + sumOf ws := rfl

theorem shares_sum {x t : ℚ} (hx : 0 ≤ x) (ht : 0 < t) {ws ss : List (FP L P)}
    (hw : ∀ w ∈ ws, 0 ≤ value w)
    (h : List.Forall₂ (fun w s => value s = shareOf P x t (value w)) ws ss) :
    sumOf ss ≤ x * sumOf ws / t ∧
      x * sumOf ws / t - sumOf ss ≤ ws.length * ((1 + 1 / t) / 10 ^ P) := by
  induction h with
  | nil => simp [sumOf]
  | @cons w s ws ss h1 h2 ih =>
    obtain ⟨i1, i2⟩ := ih fun w hm => hw w (List.mem_cons_of_mem _ hm)
    obtain ⟨-, b1, b2⟩ := shareOf_bounds (P := P) hx ht (hw w List.mem_cons_self)
    rw [← h1] at b1 b2
    rw [sumOf_cons, sumOf_cons, List.length_cons]
    have e : x * (value w + sumOf ws) / t = x * value w / t + x * sumOf ws / t := by ring
    rw [e]
    push_cast
    constructor
    · linarith
    · rw [add_mul]; linarith

/-- C123: the shares and the rest together are the amount exactly, no more is given out than there
is, and less than `1 + 1/W` units of the last place per party are left, for `W` the total weight. -/
theorem C123_rest {cfg : Cfg} (hv : Valid cfg L P) (x r : FP L P) (ws ss : List (FP L P))
    (hx : 0 ≤ value x) (hw : ∀ w ∈ ws, 0 ≤ value w) (hW : 0 < sumOf ws)
    (h : proRata cfg x ws = .ok (ss, r)) :
    sumOf ss + value r = value x ∧ 0 ≤ value r ∧
      value r ≤ ws.length * ((1 + 1 / sumOf ws) / 10 ^ P) := by
  unfold proRata at h
  obtain ⟨t, h1, h⟩ := bind_ok_of h
  have ht : value t = sumOf ws := total_value ws t h1
  obtain ⟨k1, k2⟩ := shareOut_spec hv (by rw [ht]; exact hW.ne') _ _ _ _ h
  rw [ht] at k1
  obtain ⟨b1, b2⟩ := shares_sum hx hW hw k1
  rw [mul_div_cancel_right₀ _ hW.ne'] at b1 b2
  exact ⟨by linarith, by linarith, by linarith⟩

/-- 100.00 shared out by 1, 2, 4: 14.28, 28.57, 57.14 and 0.01 is left. -/
example := C123_rest (cfg := debugCfg) (by decide) (⟨10000⟩ : FP .i64 2) ⟨1⟩
  [⟨100⟩, ⟨200⟩, ⟨400⟩] [⟨1428⟩, ⟨2857⟩, ⟨5714⟩]
  (by rw [value_eq _ 10000 (by decide)]; norm_num)
  (by
    simp only [List.mem_cons, List.not_mem_nil, or_false, forall_eq_or_imp, forall_eq]
    rw [value_eq _ 100 (by decide), value_eq _ 200 (by decide), value_eq _ 400 (by decide)]
    norm_num)
  (by
    simp only [sumOf, List.map_cons, List.map_nil, List.sum_cons, List.sum_nil]
    rw [value_eq _ 100 (by decide), value_eq _ 200 (by decide), value_eq _ 400 (by decide)]
    norm_num)
  (by decide +kernel)

/-- C123: each party gets its exact share rounded down, less than `1 + 1/W` units below it; who has
more weight gets no less. -/
theorem C123_shares {cfg : Cfg} (hv : Valid cfg L P) (x r : FP L P) (ws ss : List (FP L P))
    (hx : 0 ≤ value x) (hw : ∀ w ∈ ws, 0 ≤ value w) (hW : 0 < sumOf ws)
    (h : proRata cfg x ws = .ok (ss, r)) :
    List.Forall₂ (fun w s => 0 ≤ value s ∧ value s ≤ value x * value w / sumOf ws ∧
      value x * value w / sumOf ws - value s < (1 + 1 / sumOf ws) / 10 ^ P) ws ss ∧
    ∀ v a w b, (v, a) ∈ ws.zip ss → (w, b) ∈ ws.zip ss → value v ≤ value w → value a ≤ value b := by
  unfold proRata at h
  obtain ⟨t, h1, h⟩ := bind_ok_of h
  have ht : value t = sumOf ws := total_value ws t h1
  obtain ⟨k1, -⟩ := shareOut_spec hv (by rw [ht]; exact hW.ne') _ _ _ _ h
  rw [ht] at k1
  constructor
  · refine List.forall₂_iff_zip.2 ⟨k1.length_eq, fun {w s} hm => ?_⟩
    rw [(List.forall₂_iff_zip.1 k1).2 hm]
    exact shareOf_bounds hx hW (hw w (List.of_mem_zip hm).1)
  · intro v a w b ha hb hab
    rw [(List.forall₂_iff_zip.1 k1).2 ha, (List.forall₂_iff_zip.1 k1).2 hb]
    exact shareOf_mono hx hW hab

/-- 100.00 shared out by 1, 2, 4: 14.28, 28.57, 57.14 and 0.01 is left. -/
example := C123_shares (cfg := debugCfg) (by decide) (⟨10000⟩ : FP .i64 2) ⟨1⟩
  [⟨100⟩, ⟨200⟩, ⟨400⟩] [⟨1428⟩, ⟨2857⟩, ⟨5714⟩]
  (by rw [value_eq _ 10000 (by decide)]; norm_num)
  (by
    simp only [List.mem_cons, List.not_mem_nil, or_false, forall_eq_or_imp, forall_eq]
    rw [value_eq _ 100 (by decide), value_eq _ 200 (by decide), value_eq _ 400 (by decide)]
    norm_num)
  (by
    simp only [sumOf, List.map_cons, List.map_nil, List.sum_cons, List.sum_nil]
    rw [value_eq _ 100 (by decide), value_eq _ 200 (by decide), value_eq _ 400 (by decide)]
    norm_num)
  (by decide +kernel)

theorem sumOf_nonneg {ws : List (FP L P)} (hw : ∀ w ∈ ws, 0 ≤ value w) : 0 ≤ sumOf ws := by
  induction ws with
  | nil => simp [sumOf]
  | cons w ws ih =>
    rw [sumOf_cons]
    exact add_nonneg (hw w List.mem_cons_self) (ih fun v hv => hw v (List.mem_cons_of_mem _ hv))

theorem total_returns {ws : List (FP L P)} (hw : ∀ w ∈ ws, 0 ≤ value w)
    (h : sumOf ws ≤ maxValue L P) : ∃ t, total ws = .ok t := by
  induction ws with
  | nil => exact ⟨FP.zero, rfl⟩
  | cons w ws ih =>
    have h0 := hw w List.mem_cons_self
    have hw' : ∀ v ∈ ws, 0 ≤ value v := fun v hv => hw v (List.mem_cons_of_mem _ hv)
    have h1 := sumOf_nonneg hw'
    rw [sumOf_cons] at h
    obtain ⟨t, ht⟩ := ih hw' (by linarith)
    have hv : value t = sumOf ws := total_value ws t ht
    obtain ⟨s, hs, -⟩ := (C01_cadd_exact t w).1
      (representable_add (c := FP.max) (by linarith) (by rw [C52_bounds_value.2]; linarith))
    exact ⟨s, by unfold total; rw [ht, ok_bind, hs]⟩

theorem shareOut_returns {cfg : Cfg} (hv : Valid cfg L P) {x t : FP L P} (hx : 0 ≤ value x)
    (ht : 0 < value t) (hxt : value x * value t ≤ maxValue L P) :
    ∀ (ws : List (FP L P)) (rest : FP L P), (∀ w ∈ ws, 0 ≤ value w) → sumOf ws ≤ value t →
    value x * sumOf ws / value t ≤ value rest → ∃ r, shareOut cfg x t ws rest = .ok r := by
  intro ws
  induction ws with
  | nil => exact fun rest _ _ _ => ⟨_, rfl⟩
  | cons w ws ih =>
    intro rest hw h1 h2
    have w0 := hw w List.mem_cons_self
    have hw' : ∀ v ∈ ws, 0 ≤ value v := fun v hv => hw v (List.mem_cons_of_mem _ hv)
    have s0 := sumOf_nonneg hw'
    rw [sumOf_cons] at h1 h2
    have hxw : value x * value w ≤ value x * value t := mul_le_mul_of_nonneg_left (by linarith) hx
    have hp0 := mul_nonneg hx w0
    obtain ⟨p, e1, v1⟩ := (C07_rmul_partial hv x w .floor (by simp)).1
      (representable_within .floor FP.zero FP.max (by rw [C52_zero]; exact hp0)
        (by rw [C52_bounds_value.2]; linarith))
    have hpx : value p ≤ value x * value w := by rw [v1]; exact (roundTo_floor_spec P _).1
    have p0 : 0 ≤ value p := by rw [v1]; exact roundTo_nonneg P _ hp0
    have hd : value p / value t ≤ value x := by rw [div_le_iff₀ ht]; linarith
    obtain ⟨s, e2, v2⟩ := (C10_rdiv_directed hv p t .floor (by simp) ht.ne').1
      (representable_within .floor FP.zero x (by rw [C52_zero]; exact div_nonneg p0 ht.le) hd)
    have hs : value s ≤ value x * value w / value t := by
      rw [v2]
      exact (roundTo_floor_spec P _).1.trans ((div_le_div_iff_of_pos_right ht).2 hpx)
    have hs0 : 0 ≤ value s := by rw [v2]; exact roundTo_nonneg P _ (div_nonneg p0 ht.le)
    have e : value x * (value w + sumOf ws) / value t =
      value x * value w / value t + value x * sumOf ws / value t := by ring
    rw [e] at h2
    have hr : 0 ≤ value x * sumOf ws / value t := div_nonneg (mul_nonneg hx s0) ht.le
    obtain ⟨rest', e3, v3⟩ := (C02_csub_exact rest s).1
      (representable_sub (c := rest) (by linarith) (by linarith))
    obtain ⟨r, e4⟩ := ih rest' hw' (by linarith) (by rw [v3]; linarith)
    unfold shareOut
    rw [e1, ok_bind, e2, ok_bind, e3, ok_bind, e4, ok_bind]
    exact ⟨_, rfl⟩

/-- C123: sharing out succeeds whenever the total weight and its product with the amount are in the
range of the type. -/
theorem C123_returns {cfg : Cfg} (hv : Valid cfg L P) (x : FP L P) (ws : List (FP L P))
    (hx : 0 ≤ value x) (hw : ∀ w ∈ ws, 0 ≤ value w) (hW : 0 < sumOf ws)
    (h1 : sumOf ws ≤ maxValue L P) (h2 : value x * sumOf ws ≤ maxValue L P) :
    ∃ ss r, proRata cfg x ws = .ok (ss, r) := by
  obtain ⟨t, ht⟩ := total_returns hw h1
  have e : value t = sumOf ws := total_value ws t ht
  obtain ⟨⟨ss, r⟩, h⟩ := shareOut_returns hv hx (by rw [e]; exact hW) (by rw [e]; exact h2) ws x hw
    e.ge (by rw [e, mul_div_cancel_right₀ _ hW.ne'])
  exact ⟨ss, r, by unfold proRata; rw [ht, ok_bind, h]⟩

example := C123_returns (cfg := debugCfg) (by decide) (⟨10000⟩ : FP .i64 2)
  [⟨100⟩, ⟨200⟩, ⟨400⟩]
  (by rw [value_eq _ 10000 (by decide)]; norm_num)
  (by
    simp only [List.mem_cons, List.not_mem_nil, or_false, forall_eq_or_imp, forall_eq]
    rw [value_eq _ 100 (by decide), value_eq _ 200 (by decide), value_eq _ 400 (by decide)]
    norm_num)
  (by
    simp only [sumOf, List.map_cons, List.map_nil, List.sum_cons, List.sum_nil]
    rw [value_eq _ 100 (by decide), value_eq _ 200 (by decide), value_eq _ 400 (by decide)]
    norm_num)
  (by
    simp only [sumOf, List.map_cons, List.map_nil, List.sum_cons, List.sum_nil, maxValue]
    rw [value_eq _ 100 (by decide), value_eq _ 200 (by decide), value_eq _ 400 (by decide),
      show rawMax .i64 = 9223372036854775807 by decide]
    norm_num)
  (by
    simp only [sumOf, List.map_cons, List.map_nil, List.sum_cons, List.sum_nil, maxValue]
    rw [value_eq _ 10000 (by decide), value_eq _ 100 (by decide), value_eq _ 200 (by decide), value_eq _ 400 (by decide),
      show rawMax .i64 = 9223372036854775807 by decide]
    norm_num)

/-- C123: with no weight at all nothing can be shared out: the error is `DivisionByZero`. -/
theorem C123_no_weight {cfg : Cfg} (hv : Valid cfg L P) (x w : FP L P) (ws : List (FP L P))
    (hw : ∀ v ∈ w :: ws, value v = 0) : proRata cfg x (w :: ws) = .err .divisionByZero := by
  have hz : sumOf (w :: ws) = 0 := by
    unfold sumOf
    exact List.sum_eq_zero fun q hq => by
      obtain ⟨v, hv, rfl⟩ := List.mem_map.1 hq
      exact hw v hv
  obtain ⟨t, ht⟩ := total_returns (ws := w :: ws) (fun v hv => (hw v hv).ge)
    (by rw [hz]; exact (maxValue_pos L P).le)
  have e : value t = 0 := by rw [total_value _ t ht]; exact hz
  obtain ⟨p, e1⟩ : ∃ p, FP.rmul cfg x w .floor = .ok p :=
    ⟨FP.zero, (C120_rmul (ε := Unit) hv x w FP.zero .floor (by
      rw [hw w List.mem_cons_self, C52_zero, mul_zero])).1⟩
  have e2 := (C10_rdiv_zero_iff hv p t .floor).2 e
  unfold proRata
  rw [ht, ok_bind]
  unfold shareOut
  rw [e1, ok_bind, e2]
  rfl

example := C123_no_weight (cfg := debugCfg) (by decide) (⟨10000⟩ : FP .i64 2) ⟨0⟩ [⟨0⟩] (by decide +kernel)

example : proRata debugCfg (⟨10000⟩ : FP .i64 2) [⟨0⟩, ⟨0⟩] = .err .divisionByZero := by
  decide +kernel

end Fixnum
