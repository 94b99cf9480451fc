import Verif.Props.WeightedMean
import Verif.Props.Integral
import Verif.Props.Monotone
import Verif.Props.Laws

/-! # Property C134: time-weighted averages

Client code: the area under a line through observations `(time, price)`, by the trapezoidal rule with
`half_sum`, `csub`, `rmul` and `cadd`, and the average price as area divided by time. -/

namespace Fixnum

open Res Spec

variable {L : Layout} {P : Nat}

/-- The loop of a client: `area = area.cadd(v.half_sum(v1, mode).rmul(t1.csub(t)?, mode)?)?` for
neighbouring observations `(t, v)` and `(t1, v1)`.  The last observation is handed back. -/
def trapezoids (cfg : Cfg) (mode : RoundMode) :
    FP L P → FP L P × FP L P → List (FP L P × FP L P) → Res ArithErr (FP L P × (FP L P × FP L P))
  | acc, p, [] => .ok (acc, p)
  | acc, (t, v), (t1, v1) :: ps => do
    let dt ← FP.csub t1 t
    let m ← FP.halfSum cfg v v1 mode
    let a ← FP.rmul cfg m dt mode
    let acc ← FP.cadd acc a
    trapezoids cfg mode acc (t1, v1) ps

/-- The client: `area.rdiv(last.csub(first)?, mode)`. -/
def timeMean (cfg : Cfg) (mode : RoundMode) (p : FP L P × FP L P) (ps : List (FP L P × FP L P)) :
    Res ArithErr (FP L P) := do
  let (area, last) ← trapezoids cfg mode FP.zero p ps
  let d ← FP.csub last.1 p.1
  FP.rdiv cfg area d mode

/-- The exact area under the line through the observations. -/
def Spec.lineArea : List (ℚ × ℚ) → ℚ
  | (t, v) :: (t1, v1) :: ps => (v + v1) / 2 * (t1 - t) + lineArea ((t1, v1) :: ps)
  | _ => 0

/-- The observations as rational numbers. -/
def Spec.observed (ps : List (FP L P × FP L P)) : List (ℚ × ℚ) := ps.map fun x => (value x.1, value x.2)

/-- The time from the first observation to the last. -/
def Spec.elapsed (p : FP L P × FP L P) (ps : List (FP L P × FP L P)) : ℚ :=
  value ((p :: ps).getLast (by simp)).1 - value p.1

/-- The times do not decrease. -/
def Spec.InTime (ps : List (FP L P × FP L P)) : Prop := ps.Pairwise fun x y => value x.1 ≤ value y.1

instance (ps : List (FP L P × FP L P)) : Decidable (InTime ps) := by unfold InTime; infer_instance

theorem elapsed_cons (p q : FP L P × FP L P) (ps : List (FP L P × FP L P)) :
    elapsed p (q :: ps) = value q.1 - value p.1 + elapsed q ps := by
  unfold elapsed
  rw [List.getLast_cons (by simp)]
  ring

theorem elapsed_nonneg {p : FP L P × FP L P} {ps : List (FP L P × FP L P)} (h : InTime (p :: ps)) :
    0 ≤ elapsed p ps := by
  induction ps generalizing p with
  | nil => simp [elapsed]
  | cons q ps ih =>
    rw [elapsed_cons]
    have := ih (List.pairwise_cons.1 h).2
    have := (List.pairwise_cons.1 h).1 q (by simp)
    linarith

/-- Half a sum is off by half a unit at most. -/
theorem halfSum_gap {cfg : Cfg} {mode : RoundMode} (hm : mode ≠ .nearest) {a b r : FP L P}
    (h : (FP.halfSum cfg a b mode : Res ArithErr (FP L P)) = .ok r) :
    0 ≤ sense mode * ((value a + value b) / 2 - value r) ∧
    sense mode * ((value a + value b) / 2 - value r) ≤ 1 / 2 * (1 / 10 ^ P) := by
  have hp := ten_pow_pos P
  obtain ⟨r', h1, h2⟩ := C16_half_sum_directed (ε := ArithErr) cfg a b mode hm
  rw [h] at h1
  cases h1
  obtain ⟨g1, g2⟩ := directed_gap (P := P) hm ((value a + value b) / 2)
  rw [← h2] at g1 g2
  refine ⟨g1, ?_⟩
  obtain ⟨s, hs⟩ : ∃ s : Int, sense mode = s := by
    cases mode
    · exact ⟨-1, by simp [sense]⟩
    · exact ⟨0, by simp [sense]⟩
    · exact ⟨1, by simp [sense]⟩
  have e : sense mode * ((value a + value b) / 2 - value r) =
      ((s * (a.inner.toInt + b.inner.toInt - 2 * r.inner.toInt) : Int) : ℚ) / 2 * (1 / 10 ^ P) := by
    rw [hs]
    unfold value
    push_cast
    field_simp
  have hu : (0 : ℚ) < 1 / 10 ^ P := by positivity
  rw [e] at g2 ⊢
  have k : ((s * (a.inner.toInt + b.inner.toInt - 2 * r.inner.toInt) : Int) : ℚ) < 2 := by
    by_contra hc
    rw [not_lt] at hc
    nlinarith
  have k : s * (a.inner.toInt + b.inner.toInt - 2 * r.inner.toInt) ≤ 1 := by
    have : s * (a.inner.toInt + b.inner.toInt - 2 * r.inner.toInt) < 2 := by exact_mod_cast k
    omega
  have k : ((s * (a.inner.toInt + b.inner.toInt - 2 * r.inner.toInt) : Int) : ℚ) ≤ 1 := by
    exact_mod_cast k
  nlinarith

theorem trapezoids_gap {cfg : Cfg} (hv : Valid cfg L P) {mode : RoundMode} (hm : mode ≠ .nearest)
    (ps : List (FP L P × FP L P)) (acc : FP L P) (p : FP L P × FP L P) (hw : InTime (p :: ps))
    (r : FP L P) (q : FP L P × FP L P) (h : trapezoids cfg mode acc p ps = .ok (r, q)) :
    q = (p :: ps).getLast (by simp) ∧
    0 ≤ sense mode * (value acc + lineArea (observed (p :: ps)) - value r) ∧
    sense mode * (value acc + lineArea (observed (p :: ps)) - value r) ≤
      (elapsed p ps / 2 + ps.length) * (1 / 10 ^ P) := by
  induction ps generalizing acc p with
  | nil => cases h; simp [lineArea, observed, elapsed]
  | cons p1 ps ih =>
    obtain ⟨t, v⟩ := p
    obtain ⟨t1, v1⟩ := p1
    unfold trapezoids at h
    obtain ⟨dt, h1, h⟩ := bind_ok_inv h
    obtain ⟨m, h2, h⟩ := bind_ok_inv h
    obtain ⟨a, h3, h⟩ := bind_ok_inv h
    obtain ⟨acc1, h4, h⟩ := bind_ok_inv h
    obtain ⟨k0, k1, k2⟩ := ih acc1 (t1, v1) (List.pairwise_cons.1 hw).2 h
    have e1 := C02_csub_ok _ _ _ h1
    have e4 := C01_cadd_ok _ _ _ h4
    have e3 := ((C07_rmul_partial hv m dt mode fun e => absurd e hm).ok_iff a).1 h3
    obtain ⟨g1, g2⟩ := directed_gap (P := P) hm (value m * value dt)
    obtain ⟨f1, f2⟩ := halfSum_gap hm h2
    rw [← e3] at g1 g2
    have hd : 0 ≤ value dt := by
      have := (List.pairwise_cons.1 hw).1 (t1, v1) (by simp)
      rw [e1]
      dsimp only at this
      linarith
    have hp : lineArea (observed ((t, v) :: (t1, v1) :: ps)) =
        (value v + value v1) / 2 * (value t1 - value t) + lineArea (observed ((t1, v1) :: ps)) := rfl
    have key : sense mode * (value acc + lineArea (observed ((t, v) :: (t1, v1) :: ps)) - value r) =
        sense mode * ((value v + value v1) / 2 - value m) * value dt +
          sense mode * (value m * value dt - value a) +
          sense mode * (value acc1 + lineArea (observed ((t1, v1) :: ps)) - value r) := by
      rw [hp, e4, e1]; ring
    have b1 := mul_nonneg f1 hd
    have b2 := mul_le_mul_of_nonneg_right f2 hd
    refine ⟨k0.trans (List.getLast_cons (by simp)).symm, by rw [key]; linarith, ?_⟩
    rw [key, elapsed_cons, List.length_cons]
    dsimp only
    rw [← e1]
    push_cast
    linarith

/-- What both directions share. -/
theorem timeMean_gap {cfg : Cfg} (hv : Valid cfg L P) {mode : RoundMode} (hm : mode ≠ .nearest)
    (p : FP L P × FP L P) (ps : List (FP L P × FP L P)) (hw : InTime (p :: ps)) (r : FP L P)
    (h : timeMean cfg mode p ps = .ok r) :
    0 < elapsed p ps ∧
    0 ≤ sense mode * (lineArea (observed (p :: ps)) / elapsed p ps - value r) ∧
    sense mode * (lineArea (observed (p :: ps)) / elapsed p ps - value r) <
      (3 / 2 + ps.length / elapsed p ps) * (1 / 10 ^ P) := by
  unfold timeMean at h
  obtain ⟨⟨a, q⟩, h1, h⟩ := bind_ok_inv h
  dsimp only at h
  obtain ⟨d, h2, h5⟩ := bind_ok_inv h
  obtain ⟨k0, k2, k3⟩ := trapezoids_gap hv hm ps _ _ hw _ _ h1
  have hz : value (FP.zero : FP L P) = 0 := C52_zero
  rw [hz, zero_add] at k2 k3
  have k1 : value d = elapsed p ps := by rw [C02_csub_ok _ _ _ h2, k0]; rfl
  have hd : value d ≠ 0 := by
    intro hd
    rw [(C10_rdiv_zero_iff hv a d mode).2 hd] at h5
    cases h5
  have hW : 0 < elapsed p ps := lt_of_le_of_ne (elapsed_nonneg hw) (by rw [← k1]; exact hd.symm)
  have e := ((C10_rdiv_directed hv a d mode hm hd).ok_iff r).1 h5
  rw [k1] at e
  obtain ⟨g1, g2⟩ := directed_gap (P := P) hm (value a / elapsed p ps)
  rw [← e] at g1 g2
  set A := lineArea (observed (p :: ps))
  set T := elapsed p ps
  have key : sense mode * (A / T - value r) =
      sense mode * (A - value a) / T + sense mode * (value a / T - value r) := by
    ring
  have b1 : 0 ≤ sense mode * (A - value a) / T := div_nonneg k2 hW.le
  have b2 : sense mode * (A - value a) / T ≤ (1 / 2 + ps.length / T) * (1 / 10 ^ P) := by
    rw [div_le_iff₀ hW]
    refine le_trans k3 (le_of_eq ?_)
    field_simp
  refine ⟨hW, by rw [key]; linarith, ?_⟩
  rw [key]
  linarith

theorem lineArea_le (ps : List (FP L P × FP L P)) (p : FP L P × FP L P) (hw : InTime (p :: ps)) (B : ℚ)
    (hB : ∀ x ∈ p :: ps, value x.2 ≤ B) : lineArea (observed (p :: ps)) ≤ B * elapsed p ps := by
  induction ps generalizing p with
  | nil => simp [lineArea, observed, elapsed]
  | cons q ps ih =>
    have k := ih q (List.pairwise_cons.1 hw).2 fun x hx => hB x (List.mem_cons_of_mem _ hx)
    have h1 := (List.pairwise_cons.1 hw).1 q (by simp)
    have h2 := hB p (by simp)
    have h3 := hB q (by simp)
    have hp : lineArea (observed (p :: q :: ps)) =
        (value p.2 + value q.2) / 2 * (value q.1 - value p.1) + lineArea (observed (q :: ps)) := rfl
    rw [hp, elapsed_cons]
    nlinarith

theorem le_lineArea (ps : List (FP L P × FP L P)) (p : FP L P × FP L P) (hw : InTime (p :: ps)) (B : ℚ)
    (hB : ∀ x ∈ p :: ps, B ≤ value x.2) : B * elapsed p ps ≤ lineArea (observed (p :: ps)) := by
  induction ps generalizing p with
  | nil => simp [lineArea, observed, elapsed]
  | cons q ps ih =>
    have k := ih q (List.pairwise_cons.1 hw).2 fun x hx => hB x (List.mem_cons_of_mem _ hx)
    have h1 := (List.pairwise_cons.1 hw).1 q (by simp)
    have h2 := hB p (by simp)
    have h3 := hB q (by simp)
    have hp : lineArea (observed (p :: q :: ps)) =
        (value p.2 + value q.2) / 2 * (value q.1 - value p.1) + lineArea (observed (q :: ps)) := rfl
    rw [hp, elapsed_cons]
    nlinarith

/-- C134, rounding down: the average is never above the exact one, less than `3/2 + n/T` units below it
(`n` intervals, time `T`), and never above a bound of all prices. -/
theorem C134_floor {cfg : Cfg} (hv : Valid cfg L P) (p : FP L P × FP L P)
    (ps : List (FP L P × FP L P)) (hw : InTime (p :: ps)) (r : FP L P)
    (h : timeMean cfg .floor p ps = .ok r) :
    0 < elapsed p ps ∧ value r ≤ lineArea (observed (p :: ps)) / elapsed p ps ∧
    lineArea (observed (p :: ps)) / elapsed p ps - value r <
      (3 / 2 + ps.length / elapsed p ps) * value (FP.epsilon : FP L P) ∧
    ∀ B : ℚ, (∀ x ∈ p :: ps, value x.2 ≤ B) → value r ≤ B := by
  obtain ⟨h1, h2, h3⟩ := timeMean_gap hv (by simp) p ps hw r h
  simp only [sense, one_mul] at h2 h3
  refine ⟨h1, by linarith, by rw [C52_epsilon.1]; exact h3, fun B hB => ?_⟩
  have := (div_le_iff₀ h1).2 (lineArea_le ps p hw B hB)
  linarith

/-- C134, rounding up: the mirror image. -/
theorem C134_ceil {cfg : Cfg} (hv : Valid cfg L P) (p : FP L P × FP L P)
    (ps : List (FP L P × FP L P)) (hw : InTime (p :: ps)) (r : FP L P)
    (h : timeMean cfg .ceil p ps = .ok r) :
    0 < elapsed p ps ∧ lineArea (observed (p :: ps)) / elapsed p ps ≤ value r ∧
    value r - lineArea (observed (p :: ps)) / elapsed p ps <
      (3 / 2 + ps.length / elapsed p ps) * value (FP.epsilon : FP L P) ∧
    ∀ B : ℚ, (∀ x ∈ p :: ps, B ≤ value x.2) → B ≤ value r := by
  obtain ⟨h1, h2, h3⟩ := timeMean_gap hv (by simp) p ps hw r h
  simp only [sense] at h2 h3
  refine ⟨h1, by linarith, by rw [C52_epsilon.1]; linarith, fun B hB => ?_⟩
  have := (le_div_iff₀ h1).2 (le_lineArea ps p hw B hB)
  linarith

-- 10.01 at time 0, 10.02 at 0.50, 9.00 at 1.75: 9.6542... on average
example : timeMean debugCfg .floor ((⟨0⟩ : FP .i64 2), ⟨1001⟩) [(⟨50⟩, ⟨1002⟩), (⟨175⟩, ⟨900⟩)] =
      .ok ⟨964⟩ ∧
    timeMean debugCfg .ceil ((⟨0⟩ : FP .i64 2), ⟨1001⟩) [(⟨50⟩, ⟨1002⟩), (⟨175⟩, ⟨900⟩)] =
      .ok ⟨966⟩ := by decide +kernel
example := C134_floor (cfg := debugCfg) (by decide) ((⟨0⟩ : FP .i64 2), ⟨1001⟩)
  [(⟨50⟩, ⟨1002⟩), (⟨175⟩, ⟨900⟩)] (by decide +kernel) ⟨964⟩ (by decide +kernel)
example := C134_ceil (cfg := debugCfg) (by decide) ((⟨0⟩ : FP .i64 2), ⟨1001⟩)
  [(⟨50⟩, ⟨1002⟩), (⟨175⟩, ⟨900⟩)] (by decide +kernel) ⟨966⟩ (by decide +kernel)

theorem trapezoids_nearest {cfg : Cfg} (hv : Valid cfg L P) (ho : cfg.overflowChecks = true)
    (ps : List (FP L P × FP L P)) (acc : FP L P) (p : FP L P × FP L P) (hw : InTime (p :: ps))
    (r : FP L P) (q : FP L P × FP L P) (h : trapezoids cfg .nearest acc p ps = .ok (r, q)) :
    q = (p :: ps).getLast (by simp) ∧
    |value acc + lineArea (observed (p :: ps)) - value r| ≤
      (elapsed p ps + ps.length) * (1 / 2 / 10 ^ P) := by
  induction ps generalizing acc p with
  | nil => cases h; simp [lineArea, observed, elapsed]
  | cons p1 ps ih =>
    obtain ⟨t, v⟩ := p
    obtain ⟨t1, v1⟩ := p1
    unfold trapezoids at h
    obtain ⟨dt, h1, h⟩ := bind_ok_inv h
    obtain ⟨m, h2, h⟩ := bind_ok_inv h
    obtain ⟨a, h3, h⟩ := bind_ok_inv h
    obtain ⟨acc1, h4, h⟩ := bind_ok_inv h
    obtain ⟨k0, k1⟩ := ih acc1 (t1, v1) (List.pairwise_cons.1 hw).2 h
    have e1 := C02_csub_ok _ _ _ h1
    have e4 := C01_cadd_ok _ _ _ h4
    have g := roundTo_nearest_error P (value m * value dt)
    rw [← rmul_checked_value hv (.inr ho) h3] at g
    obtain ⟨m', h2', f⟩ := C16_half_sum_nearest (ε := ArithErr) cfg v v1
    rw [h2] at h2'
    cases h2'
    have hd : 0 ≤ value dt := by
      have := (List.pairwise_cons.1 hw).1 (t1, v1) (by simp)
      rw [e1]
      dsimp only at this
      linarith
    have hp : lineArea (observed ((t, v) :: (t1, v1) :: ps)) =
        (value v + value v1) / 2 * (value t1 - value t) + lineArea (observed ((t1, v1) :: ps)) := rfl
    have key : value acc + lineArea (observed ((t, v) :: (t1, v1) :: ps)) - value r =
        ((value v + value v1) / 2 - value m) * value dt - (value a - value m * value dt) +
          (value acc1 + lineArea (observed ((t1, v1) :: ps)) - value r) := by
      rw [hp, e4, e1]; ring
    have b : |((value v + value v1) / 2 - value m) * value dt| ≤ 1 / 2 / 10 ^ P * value dt := by
      rw [abs_mul, abs_of_nonneg hd]
      exact mul_le_mul_of_nonneg_right (f.trans (by rw [mul_one_div])) hd
    refine ⟨k0, ?_⟩
    rw [key, elapsed_cons, List.length_cons]
    dsimp only
    rw [← e1]
    have := abs_add_le (((value v + value v1) / 2 - value m) * value dt - (value a - value m * value dt))
      (value acc1 + lineArea (observed ((t1, v1) :: ps)) - value r)
    have := abs_sub (((value v + value v1) / 2 - value m) * value dt) (value a - value m * value dt)
    push_cast
    linarith

/-- C134, rounding to the nearest, with overflow checks: within `1 + n/2T` units of the exact average. -/
theorem C134_nearest {cfg : Cfg} (hv : Valid cfg L P) (ho : cfg.overflowChecks = true)
    (p : FP L P × FP L P) (ps : List (FP L P × FP L P)) (hw : InTime (p :: ps)) (r : FP L P)
    (h : timeMean cfg .nearest p ps = .ok r) :
    0 < elapsed p ps ∧ |value r - lineArea (observed (p :: ps)) / elapsed p ps| ≤
      (1 + ps.length / (2 * elapsed p ps)) * value (FP.epsilon : FP L P) := by
  unfold timeMean at h
  obtain ⟨⟨a, q⟩, h1, h⟩ := bind_ok_inv h
  dsimp only at h
  obtain ⟨d, h2, h5⟩ := bind_ok_inv h
  obtain ⟨k0, k2⟩ := trapezoids_nearest hv ho ps _ _ hw _ _ h1
  have hz : value (FP.zero : FP L P) = 0 := C52_zero
  rw [hz, zero_add] at k2
  have k1 : value d = elapsed p ps := by rw [C02_csub_ok _ _ _ h2, k0]; rfl
  obtain ⟨hd, e⟩ := rdiv_checked_value hv (.inr ho) h5
  have hW : 0 < elapsed p ps := lt_of_le_of_ne (elapsed_nonneg hw) (by rw [← k1]; exact hd.symm)
  rw [k1] at e
  have g := roundTo_nearest_error P (value a / elapsed p ps)
  rw [← e] at g
  refine ⟨hW, ?_⟩
  rw [C52_epsilon.1]
  set A := lineArea (observed (p :: ps))
  set T := elapsed p ps
  have key : value r - A / T = (value r - value a / T) - (A - value a) / T := by ring
  have b2 : |(A - value a) / T| ≤ (1 / 2 + ps.length / (2 * T)) * (1 / 10 ^ P) := by
    rw [abs_div, abs_of_pos hW, div_le_iff₀ hW]
    refine le_trans k2 (le_of_eq ?_)
    field_simp
  have := abs_sub (value r - value a / T) ((A - value a) / T)
  rw [key]
  have e2 : (1 : ℚ) / 2 / 10 ^ P = 1 / 2 * (1 / 10 ^ P) := by ring
  rw [e2] at g
  linarith

example := C134_nearest (cfg := debugCfg) (by decide) rfl ((⟨0⟩ : FP .i64 2), ⟨1001⟩)
  [(⟨50⟩, ⟨1002⟩), (⟨175⟩, ⟨900⟩)] (by decide +kernel) ⟨966⟩ (by decide +kernel)

theorem trapezoids_cons (cfg : Cfg) (mode : RoundMode) (acc t v t1 v1 : FP L P)
    (ps : List (FP L P × FP L P)) : trapezoids cfg mode acc (t, v) ((t1, v1) :: ps) =
      (FP.csub t1 t >>= fun dt => FP.halfSum cfg v v1 mode >>= fun m => FP.rmul cfg m dt mode >>= fun a =>
        FP.cadd acc a >>= fun acc => trapezoids cfg mode acc (t1, v1) ps) := rfl

theorem trapezoids_append (cfg : Cfg) (mode : RoundMode) (ps qs : List (FP L P × FP L P)) (acc : FP L P)
    (p : FP L P × FP L P) : trapezoids cfg mode acc p (ps ++ qs) =
      trapezoids cfg mode acc p ps >>= fun x => trapezoids cfg mode x.1 x.2 qs := by
  induction ps generalizing acc p with
  | nil => rfl
  | cons p1 ps ih =>
    obtain ⟨t, v⟩ := p
    obtain ⟨t1, v1⟩ := p1
    rw [List.cons_append, trapezoids_cons, trapezoids_cons]
    rcases FP.csub t1 t with dt | e | k
    · rcases (FP.halfSum cfg v v1 mode : Res ArithErr (FP L P)) with m | e | k
      · simp only [ok_bind]
        rcases FP.rmul cfg m dt mode with a | e | k
        · simp only [ok_bind]
          rcases FP.cadd acc a with acc1 | e | k
          · exact ih acc1 (t1, v1)
          · rfl
          · rfl
        · rfl
        · rfl
      · rfl
      · rfl
    · rfl
    · rfl

theorem trapezoids_start {cfg : Cfg} {mode : RoundMode} (ps : List (FP L P × FP L P))
    (acc acc' : FP L P) (p : FP L P × FP L P) (r r' : FP L P × (FP L P × FP L P))
    (h : trapezoids cfg mode acc p ps = .ok r) (h' : trapezoids cfg mode acc' p ps = .ok r') :
    value r.1 - value acc = value r'.1 - value acc' ∧ r.2 = r'.2 := by
  induction ps generalizing acc acc' p with
  | nil => cases h; cases h'; simp
  | cons p1 ps ih =>
    obtain ⟨t, v⟩ := p
    obtain ⟨t1, v1⟩ := p1
    unfold trapezoids at h h'
    obtain ⟨dt, h1, h⟩ := bind_ok_inv h
    obtain ⟨m, h2, h⟩ := bind_ok_inv h
    obtain ⟨a, h3, h⟩ := bind_ok_inv h
    obtain ⟨acc1, h4, h⟩ := bind_ok_inv h
    rw [h1, ok_bind, h2, ok_bind, h3, ok_bind] at h'
    obtain ⟨acc1', h4', h'⟩ := bind_ok_inv h'
    obtain ⟨k1, k2⟩ := ih _ _ _ h h'
    rw [C01_cadd_ok _ _ _ h4, C01_cadd_ok _ _ _ h4'] at k1
    exact ⟨by linarith, k2⟩

/-- C134: areas add up.  The area from `p` over `ps` to `q` and on from `q` over `qs` is, to the last
digit, the sum of the two areas, in every mode. -/
theorem C134_additive {cfg : Cfg} {mode : RoundMode} (p q z : FP L P × FP L P)
    (ps qs : List (FP L P × FP L P)) (a b c : FP L P)
    (ha : trapezoids cfg mode FP.zero p ps = .ok (a, q))
    (hb : trapezoids cfg mode FP.zero q qs = .ok (b, z)) {z' : FP L P × FP L P}
    (hc : trapezoids cfg mode FP.zero p (ps ++ qs) = .ok (c, z')) :
    value c = value a + value b ∧ z' = z := by
  rw [trapezoids_append, ha, ok_bind] at hc
  obtain ⟨k1, k2⟩ := trapezoids_start qs _ _ _ _ _ hc hb
  have hz : value (FP.zero : FP L P) = 0 := C52_zero
  rw [hz] at k1
  exact ⟨by dsimp only at k1; linarith, k2⟩

example := C134_additive (cfg := debugCfg) (mode := .nearest) ((⟨0⟩ : FP .i64 2), ⟨1001⟩) (⟨50⟩, ⟨1002⟩)
  (⟨175⟩, ⟨900⟩) [(⟨50⟩, ⟨1002⟩)] [(⟨175⟩, ⟨900⟩)] ⟨501⟩ ⟨1189⟩ ⟨1690⟩ (by decide +kernel)
  (by decide +kernel) (z' := (⟨175⟩, ⟨900⟩)) (by decide +kernel)

theorem trapezoids_returns {cfg : Cfg} (hv : Valid cfg L P) {mode : RoundMode}
    (hm : mode = .nearest → ¬ (L = .i128 ∧ P = 38)) (ps : List (FP L P × FP L P)) (acc : FP L P)
    (p : FP L P × FP L P) :
    (∃ r, trapezoids cfg mode acc p ps = .ok (r, (p :: ps).getLast (by simp))) ∨
      trapezoids cfg mode acc p ps = .err .overflow := by
  induction ps generalizing acc p with
  | nil => exact .inl ⟨_, rfl⟩
  | cons p1 ps ih =>
    obtain ⟨t, v⟩ := p
    obtain ⟨t1, v1⟩ := p1
    unfold trapezoids
    rcases exactOr_cases (C02_csub_exact t1 t) with ⟨dt, e⟩ | e
    · rw [e, ok_bind]
      obtain ⟨m, e, -⟩ := halfSum_value (ε := ArithErr) cfg v v1 mode
      rw [e, ok_bind]
      rcases exactOr_cases (C07_rmul_partial hv m dt mode hm) with ⟨a, e⟩ | e
      · rw [e, ok_bind]
        rcases exactOr_cases (C01_cadd_exact acc a) with ⟨acc1, e⟩ | e
        · rw [e, ok_bind]
          rcases ih acc1 (t1, v1) with ⟨r, h⟩ | h
          · exact .inl ⟨r, h⟩
          · exact .inr h
        · rw [e]; exact .inr rfl
      · rw [e]; exact .inr rfl
    · rw [e]; exact .inr rfl

/-- C134: rounding down or up, the computation returns a number, `Overflow` or `DivisionByZero`. -/
theorem C134_returns {cfg : Cfg} (hv : Valid cfg L P) (mode : RoundMode) (hm : mode ≠ .nearest)
    (p : FP L P × FP L P) (ps : List (FP L P × FP L P)) :
    (∃ r, timeMean cfg mode p ps = .ok r) ∨ timeMean cfg mode p ps = .err .overflow ∨
      timeMean cfg mode p ps = .err .divisionByZero := by
  unfold timeMean
  rcases trapezoids_returns hv (fun e => absurd e hm) ps FP.zero p with ⟨a, e⟩ | e
  · rw [e, ok_bind]
    dsimp only
    rcases exactOr_cases (C02_csub_exact ((p :: ps).getLast (by simp)).1 p.1) with ⟨d, e⟩ | e
    · rw [e, ok_bind]
      by_cases hd : value d = 0
      · exact .inr (.inr ((C10_rdiv_zero_iff hv a d mode).2 hd))
      · rcases exactOr_cases (C10_rdiv_directed hv a d mode hm hd) with h | h
        · exact .inl h
        · exact .inr (.inl h)
    · rw [e]; exact .inr (.inl rfl)
  · rw [e]; exact .inr (.inl rfl)

example := C134_returns (cfg := debugCfg) (by decide) .ceil (by simp) ((FP.min : FP .i64 2), FP.max)
  [(FP.max, FP.min)]

/-- C134: if no time has passed from the first observation to the last, the result is `DivisionByZero`;
and that is the only way to get it. -/
theorem C134_zero {cfg : Cfg} (hv : Valid cfg L P) (mode : RoundMode)
    (hm : mode = .nearest → ¬ (L = .i128 ∧ P = 38)) (p : FP L P × FP L P)
    (ps : List (FP L P × FP L P)) (hw : InTime (p :: ps)) :
    timeMean cfg mode p ps = .err .divisionByZero ↔ elapsed p ps = 0 := by
  have rets := trapezoids_returns hv hm ps FP.zero p
  constructor
  · intro h
    unfold timeMean at h
    rcases rets with ⟨a, e⟩ | e
    · rw [e, ok_bind] at h
      dsimp only at h
      rcases exactOr_cases (C02_csub_exact ((p :: ps).getLast (by simp)).1 p.1) with ⟨d, e⟩ | e
      · rw [e, ok_bind] at h
        have := (C10_rdiv_zero_iff hv a d mode).1 h
        rwa [C02_csub_ok _ _ _ e] at this
      · rw [e] at h; cases h
    · rw [e] at h; cases h
  · intro h0
    have zero : ∀ (ps : List (FP L P × FP L P)) (p : FP L P × FP L P), InTime (p :: ps) →
        elapsed p ps = 0 →
        trapezoids cfg mode FP.zero p ps = .ok (FP.zero, (p :: ps).getLast (by simp)) := by
      intro ps
      induction ps with
      | nil => intro p _ _; rfl
      | cons p1 ps ih =>
        rintro ⟨t, v⟩ hw h0
        obtain ⟨t1, v1⟩ := p1
        rw [elapsed_cons] at h0
        have k1 := elapsed_nonneg (List.pairwise_cons.1 hw).2
        have k2 := (List.pairwise_cons.1 hw).1 (t1, v1) (by simp)
        dsimp only at k1 k2 h0
        have e0 : value t1 - value t = value (FP.zero : FP L P) := by rw [C52_zero]; linarith
        have e1 : FP.csub t1 t = .ok FP.zero := ((C02_csub_exact t1 t).ok_iff _).2 e0.symm
        obtain ⟨m, e2, -⟩ := halfSum_value (ε := ArithErr) cfg v v1 mode
        have e3 : FP.rmul cfg m FP.zero mode = .ok FP.zero := by
          refine ((C07_rmul_partial hv m FP.zero mode hm).ok_iff _).2 ?_
          rw [C52_zero, mul_zero, ← C52_zero (L := L) (P := P), roundTo_value]
        have e4 : FP.cadd (FP.zero : FP L P) FP.zero = .ok FP.zero := by
          refine ((C01_cadd_exact _ _).ok_iff _).2 ?_
          rw [C52_zero, add_zero]
        unfold trapezoids
        rw [e1, ok_bind, e2, ok_bind, e3, ok_bind, e4, ok_bind,
          ih (t1, v1) (List.pairwise_cons.1 hw).2 (by linarith)]
        rfl
    unfold timeMean
    rw [zero ps p hw h0, ok_bind]
    dsimp only
    have e0 : value ((p :: ps).getLast (by simp)).1 - value p.1 = value (FP.zero : FP L P) := by
      rw [C52_zero]; exact h0
    have e1 := ((C02_csub_exact ((p :: ps).getLast (by simp)).1 p.1).ok_iff _).2 e0.symm
    rw [e1, ok_bind]
    exact (C10_rdiv_zero_iff hv _ _ mode).2 C52_zero

example : timeMean debugCfg .nearest ((⟨50⟩ : FP .i64 2), ⟨1001⟩) [(⟨50⟩, ⟨1002⟩)] =
    .err .divisionByZero :=
  (C134_zero (by decide) _ (by decide) _ _ (by decide +kernel)).2 (by simp [elapsed])

end Fixnum
