import Verif.Props.Finance
import Verif.Props.Horner

/-! # Property C135: an amount released over time

Client code: of `total`, `total * t / duration` is released at time `t`, all of it from `duration` on; and
whoever is entitled to it claims, any number of times, what has been released and not yet claimed. -/

namespace Fixnum

open Res Spec

variable {L : Layout} {P : Nat}

/-- The client: `total` once `t >= duration`, before that
`total.rmul(t, Floor)?.rdiv(duration, Floor)?`. -/
def vested (cfg : Cfg) (total duration t : FP L P) : Res ArithErr (FP L P) :=
  if FP.cmp t duration = .lt then do
    let p ← FP.rmul cfg total t .floor
    FP.rdiv cfg p duration .floor
  else .ok total

/-- The client's loop: at each of the times, the amount released less the amount already claimed.  The
claims, and the amount claimed in the end. -/
def claims (cfg : Cfg) (total duration : FP L P) :
    FP L P → List (FP L P) → Res ArithErr (List (FP L P) × FP L P)
  | c, [] => .ok ([], c)
  | c, t :: ts => do
    let v ← vested cfg total duration t
    let x ← FP.csub v c
    let (xs, c) ← claims cfg total duration v ts
    .ok (x :: xs, c)

/-- What is due at time `t`: a share of the total in proportion to the time, and no more than the
total. -/
def Spec.due (total duration t : ℚ) : ℚ := if t < duration then total * t / duration else total

theorem due_mono {total duration t u : ℚ} (ht : 0 ≤ total) (hd : 0 < duration) (h : t ≤ u) :
    due total duration t ≤ due total duration u := by
  unfold due
  split
  · rename_i h1
    split
    · exact div_le_div_of_nonneg_right (mul_le_mul_of_nonneg_left h ht) hd.le
    · rw [div_le_iff₀ hd]
      exact mul_le_mul_of_nonneg_left h1.le ht
  · rw [if_neg (by linarith)]

theorem vested_cases {cfg : Cfg} (hv : Valid cfg L P) {total duration t v : FP L P}
    (hd : 0 < value duration) (h : vested cfg total duration t = .ok v) :
    (value t < value duration ∧
      value v = roundTo P .floor (roundTo P .floor (value total * value t) / value duration)) ∨
    (value duration ≤ value t ∧ v = total) := by
  unfold vested at h
  split at h
  · rename_i hc
    rw [C54_cmp, compare_lt_iff_lt] at hc
    obtain ⟨p, h1, h2⟩ := bind_ok_of h
    refine .inl ⟨hc, ?_⟩
    rw [((C10_rdiv_directed hv p duration .floor (by simp) hd.ne').ok_iff v).1 h2,
      ((C07_rmul_partial hv total t .floor (by simp)).ok_iff p).1 h1]
  · rename_i hc
    rw [C54_cmp, compare_lt_iff_lt, not_lt] at hc
    cases h
    exact .inr ⟨hc, rfl⟩

/-- C135: what is released is never more than what is due, less than `1 + 1/duration` units below it, and
between nothing and the total; it is the total from `duration` on. -/
theorem C135_bounds {cfg : Cfg} (hv : Valid cfg L P) (total duration t v : FP L P)
    (h0 : 0 ≤ value total) (hd : 0 < value duration) (ht : 0 ≤ value t)
    (h : vested cfg total duration t = .ok v) :
    value v ≤ due (value total) (value duration) (value t) ∧
    due (value total) (value duration) (value t) - value v <
      (1 + 1 / value duration) * value (FP.epsilon : FP L P) ∧
    0 ≤ value v ∧ value v ≤ value total ∧ (value duration ≤ value t → v = total) := by
  have hu : (0 : ℚ) < 1 / 10 ^ P := by have := ten_pow_pos P; positivity
  rw [C52_epsilon.1]
  unfold due
  rcases vested_cases hv hd h with ⟨k, e⟩ | ⟨k, rfl⟩
  · rw [if_pos k, e]
    obtain ⟨a1, a2⟩ := roundTo_floor_lt P (value total * value t)
    have a3 := roundTo_nonneg P .floor (mul_nonneg h0 ht)
    obtain ⟨b1, b2⟩ := roundTo_floor_lt P (roundTo P .floor (value total * value t) / value duration)
    have b3 := roundTo_nonneg P .floor (div_nonneg a3 hd.le)
    have c1 : roundTo P .floor (value total * value t) / value duration ≤
        value total * value t / value duration := div_le_div_of_nonneg_right a1 hd.le
    have c2 : value total * value t / value duration <
        roundTo P .floor (value total * value t) / value duration + 1 / value duration * (1 / 10 ^ P) := by
      rw [one_div_mul_eq_div, ← add_div]
      exact div_lt_div_of_pos_right a2 hd
    have c3 : value total * value t / value duration ≤ value total := by
      rw [div_le_iff₀ hd]
      exact mul_le_mul_of_nonneg_left k.le h0
    exact ⟨by linarith, by linarith, b3, by linarith, fun k' => absurd k (by linarith)⟩
  · rw [if_neg (by linarith)]
    refine ⟨le_refl _, ?_, h0, le_refl _, fun _ => rfl⟩
    rw [sub_self]
    positivity

-- of 100.00 over 3.65, after 1.00: 27.397...
example : vested debugCfg (⟨10000⟩ : FP .i64 2) ⟨365⟩ ⟨100⟩ = .ok ⟨2739⟩ ∧
    vested debugCfg (⟨10000⟩ : FP .i64 2) ⟨365⟩ ⟨400⟩ = .ok ⟨10000⟩ := by decide +kernel
example := C135_bounds (cfg := debugCfg) (by decide) (⟨10000⟩ : FP .i64 2) ⟨365⟩ ⟨100⟩ ⟨2739⟩
  (by decide +kernel) (by decide +kernel) (by decide +kernel) (by decide +kernel)

/-- C135: as time passes no less is released, and of a larger total no less. -/
theorem C135_mono {cfg : Cfg} (hv : Valid cfg L P) (total total' duration t u v w : FP L P)
    (h0 : 0 ≤ value total) (h00 : value total ≤ value total') (hd : 0 < value duration)
    (ht : 0 ≤ value t) (htu : value t ≤ value u) (h : vested cfg total duration t = .ok v)
    (h' : vested cfg total' duration u = .ok w) : value v ≤ value w := by
  rcases vested_cases hv hd h' with ⟨k', e'⟩ | ⟨k', rfl⟩
  · rcases vested_cases hv hd h with ⟨k, e⟩ | ⟨k, rfl⟩
    · rw [e, e']
      refine roundTo_mono P .floor (div_le_div_of_nonneg_right (roundTo_mono P .floor ?_) hd.le)
      exact mul_le_mul h00 htu ht (h0.trans h00)
    · linarith
  · exact (C135_bounds hv total duration t v h0 hd ht h).2.2.2.1.trans h00

example := C135_mono (cfg := debugCfg) (by decide) (⟨10000⟩ : FP .i64 2) ⟨10001⟩ ⟨365⟩ ⟨100⟩ ⟨364⟩ ⟨2739⟩
  ⟨9973⟩ (by decide +kernel) (by decide +kernel) (by decide +kernel) (by decide +kernel)
  (by decide +kernel) (by decide +kernel) (by decide +kernel)

theorem claims_sum {cfg : Cfg} (hv : Valid cfg L P) (total duration : FP L P) (h0 : 0 ≤ value total)
    (hd : 0 < value duration) (ts : List (FP L P)) :
    ∀ (t c : FP L P) (xs : List (FP L P)) (c' : FP L P), (t :: ts).Pairwise (fun x y => value x ≤ value y) →
      0 ≤ value t → vested cfg total duration t = .ok c → claims cfg total duration c ts = .ok (xs, c') →
      (∀ x ∈ xs, 0 ≤ value x) ∧ value c + (xs.map value).sum = value c' ∧
      vested cfg total duration ((t :: ts).getLast (by simp)) = .ok c' := by
  induction ts with
  | nil =>
    intro t c xs c' _ _ h1 h
    cases h
    simp [h1]
  | cons u ts ih =>
    intro t c xs c' hw ht h1 h
    unfold claims at h
    obtain ⟨v, h2, h⟩ := bind_ok_of h
    obtain ⟨x, h3, h⟩ := bind_ok_of h
    obtain ⟨⟨ys, c2⟩, h4, h⟩ := bind_ok_of h
    cases h
    have htu := (List.pairwise_cons.1 hw).1 u (by simp)
    obtain ⟨k1, k2, k3⟩ := ih u v ys c' (List.pairwise_cons.1 hw).2 (ht.trans htu) h2 h4
    have e := C02_csub_ok _ _ _ h3
    have hm := C135_mono hv total total duration t u c v h0 (le_refl _) hd ht htu h1 h2
    refine ⟨fun y hy => ?_, ?_, k3⟩
    · rcases List.mem_cons.1 hy with rfl | hy
      · rw [e]; linarith
      · exact k1 y hy
    · rw [List.map_cons, List.sum_cons, ← k2, e]; ring

/-- C135: claims at times that do not decrease are never negative and add up, to the last digit, to what
is released at the time of the last of them, however many there are; so to the total, if that is not
before `duration`. -/
theorem C135_claims {cfg : Cfg} (hv : Valid cfg L P) (total duration : FP L P) (h0 : 0 ≤ value total)
    (hd : 0 < value duration) (t : FP L P) (ts : List (FP L P)) (ht : 0 ≤ value t)
    (hw : (t :: ts).Pairwise fun x y => value x ≤ value y) (xs : List (FP L P)) (c : FP L P)
    (h : claims cfg total duration FP.zero (t :: ts) = .ok (xs, c)) :
    (∀ x ∈ xs, 0 ≤ value x) ∧ (xs.map value).sum = value c ∧
    vested cfg total duration ((t :: ts).getLast (by simp)) = .ok c ∧
    (value duration ≤ value ((t :: ts).getLast (by simp)) → c = total) := by
  unfold claims at h
  obtain ⟨v, h2, h⟩ := bind_ok_of h
  obtain ⟨x, h3, h⟩ := bind_ok_of h
  obtain ⟨⟨ys, c2⟩, h4, h⟩ := bind_ok_of h
  cases h
  have e := C02_csub_ok _ _ _ h3
  have hz : value (FP.zero : FP L P) = 0 := C52_zero
  rw [hz, sub_zero] at e
  obtain ⟨k1, k2, k3⟩ := claims_sum hv total duration h0 hd ts t v ys c hw ht h2 h4
  refine ⟨fun y hy => ?_, ?_, k3, fun hl => ?_⟩
  · rcases List.mem_cons.1 hy with rfl | hy
    · rw [e]; exact (C135_bounds hv total duration t v h0 hd ht h2).2.2.1
    · exact k1 y hy
  · rw [List.map_cons, List.sum_cons, e, k2]
  · rcases vested_cases hv hd k3 with ⟨k, -⟩ | ⟨-, k⟩
    · linarith
    · exact k

example : claims debugCfg (⟨10000⟩ : FP .i64 2) ⟨365⟩ FP.zero [⟨100⟩, ⟨100⟩, ⟨364⟩, ⟨500⟩] =
    .ok ([⟨2739⟩, ⟨0⟩, ⟨7233⟩, ⟨28⟩], ⟨10000⟩) := by decide +kernel
example := C135_claims (cfg := debugCfg) (by decide) (⟨10000⟩ : FP .i64 2) ⟨365⟩ (by decide +kernel)
  (by decide +kernel) ⟨100⟩ [⟨100⟩, ⟨364⟩, ⟨500⟩] (by decide +kernel) (by decide +kernel)
  [⟨2739⟩, ⟨0⟩, ⟨7233⟩, ⟨28⟩] ⟨10000⟩ (by decide +kernel)

theorem vested_returns {cfg : Cfg} (hv : Valid cfg L P) (total duration : FP L P)
    (h0 : 0 ≤ value total) (hd : 0 < value duration)
    (hr : value total * value duration ≤ maxValue L P) (t : FP L P) (ht : 0 ≤ value t) :
    ∃ v, vested cfg total duration t = .ok v := by
  unfold vested
  split
  · rename_i hc
    rw [C54_cmp, compare_lt_iff_lt] at hc
    have hz : value (FP.zero : FP L P) = 0 := C52_zero
    have p0 : 0 ≤ value total * value t := mul_nonneg h0 ht
    have p1 : value total * value t ≤ value (FP.max : FP L P) := by
      rw [C52_bounds_value.2]
      exact (mul_le_mul_of_nonneg_left hc.le h0).trans hr
    obtain ⟨p, k1, k2⟩ := (C07_rmul_partial hv total t .floor (by simp)).1
      (representable_within .floor FP.zero FP.max (by rw [hz]; exact p0) p1)
    rw [k1, ok_bind]
    have q0 : 0 ≤ value p / value duration := by
      rw [k2]; exact div_nonneg (roundTo_nonneg P .floor p0) hd.le
    have q1 : value p / value duration ≤ value total := by
      rw [div_le_iff₀ hd, k2]
      exact ((roundTo_floor_lt P _).1).trans (mul_le_mul_of_nonneg_left hc.le h0)
    obtain ⟨r, k3, -⟩ := (C10_rdiv_directed hv p duration .floor (by simp) hd.ne').1
      (representable_within .floor FP.zero total (by rw [hz]; exact q0) q1)
    exact ⟨r, k3⟩
  · exact ⟨total, rfl⟩

theorem representable_sub_nonneg {x y : FP L P} (hx : 0 ≤ value x) (hy : 0 ≤ value y) :
    Representable L P (value x - value y) := by
  have e : value x - value y = ((x.inner.toInt - y.inner.toInt : Int) : ℚ) / 10 ^ P := by
    unfold value; push_cast; ring
  have bx := (C52_bounds x).2
  have by' := (C52_bounds y).2
  rw [C52_bounds_value.2] at bx by'
  rw [e]
  refine representable_of_abs_le ?_
  rw [← e, abs_le]
  constructor <;> linarith

/-- C135: if `total * duration` is in range, no claim ever fails. -/
theorem C135_returns {cfg : Cfg} (hv : Valid cfg L P) (total duration : FP L P)
    (h0 : 0 ≤ value total) (hd : 0 < value duration)
    (hr : value total * value duration ≤ maxValue L P) (ts : List (FP L P))
    (ht : ∀ t ∈ ts, 0 ≤ value t) (c : FP L P) (hc : 0 ≤ value c) :
    ∃ r, claims cfg total duration c ts = .ok r := by
  induction ts generalizing c with
  | nil => exact ⟨_, rfl⟩
  | cons t ts ih =>
    obtain ⟨v, h1⟩ := vested_returns hv total duration h0 hd hr t (ht t (by simp))
    have hb := (C135_bounds hv total duration t v h0 hd (ht t (by simp)) h1).2.2.1
    obtain ⟨x, h2, -⟩ := (C02_csub_exact v c).1 (representable_sub_nonneg hb hc)
    obtain ⟨r, h3⟩ := ih (fun u hu => ht u (List.mem_cons_of_mem _ hu)) v hb
    exact ⟨(x :: r.1, r.2), by unfold claims; rw [h1, ok_bind, h2, ok_bind, h3]; rfl⟩

example := C135_returns (cfg := debugCfg) (by decide) (⟨10000⟩ : FP .i64 2) ⟨365⟩ (by decide +kernel)
  (by decide +kernel) (by decide +kernel) [⟨100⟩, ⟨364⟩, ⟨500⟩] (by decide +kernel) FP.zero
  (by decide +kernel)
/-- Outside: a total of a third of the range over ten units of time; multiplied first it overflows. -/
example : vested debugCfg (⟨3000000000000000000⟩ : FP .i64 2) ⟨1000⟩ ⟨500⟩ = .err .overflow := by
  decide +kernel

end Fixnum
