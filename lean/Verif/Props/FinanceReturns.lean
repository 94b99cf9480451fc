import Verif.Props.Trading

/-! # Properties C87, C93, C94, C97: when chains of rates, pools, vaults and interest report no error -/

namespace Fixnum

open Res Spec

variable {L : Layout} {P : Nat}

theorem prorate_returns {cfg : Cfg} (hv : Valid cfg L P) {a b c : FP L P} (ha : 0 ≤ value a)
    (hb : 0 ≤ value b) (hc : 0 < value c) (h1 : value a * value b ≤ maxValue L P)
    (h2 : value a * value b / value c ≤ maxValue L P) : ∃ r, prorate cfg a b c .floor = .ok r := by
  have hz : value (FP.zero : FP L P) = 0 := C52_zero
  have hM : value (FP.max : FP L P) = maxValue L P := C52_bounds_value.2
  have p0 := mul_nonneg ha hb
  obtain ⟨p, k1, e1⟩ := (C07_rmul_partial hv a b .floor (by simp)).1
    (representable_within .floor FP.zero FP.max (by rw [hz]; exact p0) (by rw [hM]; exact h1))
  have q0 := roundTo_nonneg P .floor p0
  have q1 := (roundTo_floor_lt P (value a * value b)).1
  rw [← e1] at q0 q1
  obtain ⟨r, k2, -⟩ := (C10_rdiv_directed hv p c .floor (by simp) hc.ne').1
    (representable_within .floor FP.zero FP.max (by rw [hz]; exact div_nonneg q0 hc.le)
      (by rw [hM]; exact (div_le_div_of_nonneg_right q1 hc.le).trans h2))
  exact ⟨r, by unfold prorate; rw [k1, ok_bind, k2]⟩

/-- C87: a chain of conversions of a nonnegative amount rounded down reports no error if all the exact
products on the way are in range. -/
theorem C87_returns {cfg : Cfg} (hv : Valid cfg L P) (cs : List (Conv L P))
    (hc : ∀ c ∈ cs, 0 < c.factor) (x : FP L P) (hx : 0 ≤ value x)
    (h : ∀ ds, ds <+: cs → value x * factors ds ≤ maxValue L P) :
    ∃ r, convert cfg .floor cs x = .ok r := by
  have hz : value (FP.zero : FP L P) = 0 := C52_zero
  have hM : value (FP.max : FP L P) = maxValue L P := C52_bounds_value.2
  induction cs generalizing x with
  | nil => exact ⟨x, rfl⟩
  | cons c cs ih =>
    have hc0 := hc c List.mem_cons_self
    have hcs : ∀ d ∈ cs, 0 < d.factor := fun d hd => hc d (List.mem_cons_of_mem _ hd)
    have p0 := mul_nonneg hx hc0.le
    have h1 : value x * c.factor ≤ maxValue L P := by
      have := h [c] ⟨cs, rfl⟩
      rwa [factors_cons, show factors ([] : List (Conv L P)) = 1 by simp [factors], mul_one] at this
    have rep : Representable L P (roundTo P .floor (value x * c.factor)) :=
      representable_within .floor FP.zero FP.max (by rw [hz]; exact p0) (by rw [hM]; exact h1)
    have step : ∀ y : FP L P, value y = roundTo P .floor (value x * c.factor) →
        ∃ r, convert cfg .floor cs y = .ok r := by
      intro y e
      refine ih hcs y (by rw [e]; exact roundTo_nonneg P .floor p0) fun ds hd => ?_
      have hpos := factors_pos ds fun d k => hcs d (hd.subset k)
      have := h (c :: ds) (List.prefix_cons_inj c |>.2 hd)
      rw [factors_cons, ← mul_assoc] at this
      refine le_trans (mul_le_mul_of_nonneg_right ?_ hpos.le) this
      rw [e]
      exact (roundTo_floor_lt P _).1
    cases c with
    | mul q =>
      obtain ⟨y, k1, e1⟩ := (C07_rmul_partial hv x q .floor (by simp)).1 rep
      obtain ⟨r, k2⟩ := step y e1
      exact ⟨r, by unfold convert; rw [k1, ok_bind, k2]⟩
    | div q =>
      have hq : value q ≠ 0 := by
        rintro e
        simp [Conv.factor, e] at hc0
      rw [show value x * (Conv.div q).factor = value x / value q by
        unfold Conv.factor; rw [mul_one_div]] at rep step
      obtain ⟨y, k1, e1⟩ := (C10_rdiv_directed hv x q .floor (by simp) hq).1 rep
      obtain ⟨r, k2⟩ := step y e1
      exact ⟨r, by unfold convert; rw [k1, ok_bind, k2]⟩

example := C87_returns (cfg := debugCfg) (by decide) [.mul (⟨107⟩ : FP .i64 2), .div ⟨3⟩]
  (by simp [Conv.factor, value]; decide +kernel) ⟨1000⟩ (by decide +kernel)
  (by
    intro ds hd
    have : ds ∈ [[], [.mul (⟨107⟩ : FP .i64 2)], [.mul ⟨107⟩, .div ⟨3⟩]] := by
      simpa using (List.mem_inits _ _).2 hd
    simp only [List.mem_cons, List.not_mem_nil, or_false] at this
    rcases this with rfl | rfl | rfl <;> decide +kernel)

/-- C93: an exchange reports no error if the new reserve and the product of the payment and the other
reserve are in range. -/
theorem C93_returns {cfg : Cfg} (hv : Valid cfg L P) (x y d : FP L P) (hx : 0 < value x)
    (hy : 0 < value y) (hd : 0 ≤ value d) (h1 : value x + value d ≤ maxValue L P)
    (h2 : value y * value d ≤ maxValue L P) : ∃ r, swap cfg .floor (x, y) d = .ok r := by
  obtain ⟨n, k1, e1⟩ := (C01_cadd_exact x d).1 (representable_add_le (by linarith) h1)
  have hn : 0 < value n := by rw [e1]; linarith
  have hyM : value y ≤ maxValue L P := (C52_bounds y).2.trans_eq C52_bounds_value.2
  have q : value y * value d / value n ≤ value y := by
    rw [div_le_iff₀ hn, e1]
    exact mul_le_mul_of_nonneg_left (by linarith) hy.le
  obtain ⟨o, k2⟩ := prorate_returns hv hy.le hd hn h2 (q.trans hyM)
  obtain ⟨w, k3, -⟩ := (C02_csub_exact y o).1
    (representable_sub_nonneg hy.le (prorate_floor hv hy.le hd hn k2).1)
  exact ⟨((n, w), o), by simp only [swap]; rw [k1, ok_bind, k2, ok_bind, k3]; rfl⟩

example := C93_returns (cfg := debugCfg) (by decide) (⟨100⟩ : FP .i64 2) ⟨100⟩ ⟨13⟩ (by decide +kernel)
  (by decide +kernel) (by decide +kernel) (by decide +kernel) (by decide +kernel)

/-- C94: a deposit creates fewer shares than the exact number by less than `EPSILON·(1 + 1/x)`, a redemption
pays less than the exact amount by less than `EPSILON·(1 + 1/y)`. -/
theorem C94_fair {cfg : Cfg} (hv : Valid cfg L P) (x y x' y' out : FP L P) (o : VaultOp L P)
    (hx : 0 < value x) (hy : 0 < value y) (ho : 0 ≤ value o.arg)
    (h : vault cfg .floor (x, y) o = .ok ((x', y'), out)) :
    (match o with
      | .deposit a => value a * value y / value x <
          value out + value (FP.epsilon : FP L P) * (1 + 1 / value x)
      | .redeem s => value s * value x / value y <
          value out + value (FP.epsilon : FP L P) * (1 + 1 / value y)) := by
  rw [C52_epsilon.1]
  have key : ∀ {a b c : FP L P}, 0 ≤ value a → 0 ≤ value b → 0 < value c →
      prorate cfg a b c .floor = .ok out →
      value a * value b / value c < value out + 1 / 10 ^ P * (1 + 1 / value c) := by
    intro a b c ha hb hc k
    have := (prorate_floor hv ha hb hc k).2.2
    rw [div_lt_iff₀ hc]
    have e : (value out + 1 / 10 ^ P * (1 + 1 / value c)) * value c =
        value out * value c + (value c + 1) * (1 / 10 ^ P) := by
      field_simp
    rw [e]; exact this
  cases o with
  | deposit a =>
    simp only [vault] at h
    obtain ⟨s, h1, h⟩ := bind_ok_of h
    obtain ⟨u, -, h⟩ := bind_ok_of h
    obtain ⟨v, -, h⟩ := bind_ok_of h
    cases h
    exact key ho hy.le hx h1
  | redeem s =>
    simp only [vault] at h
    split at h
    · obtain ⟨a, h1, h⟩ := bind_ok_of h
      obtain ⟨u, -, h⟩ := bind_ok_of h
      obtain ⟨v, -, h⟩ := bind_ok_of h
      cases h
      exact key ho hx.le hy h1
    · cases h

example : vault debugCfg .floor ((⟨300⟩, ⟨100⟩) : FP .i64 2 × FP .i64 2) (.deposit ⟨1000⟩) =
    .ok ((⟨1300⟩, ⟨433⟩), ⟨333⟩) := by decide +kernel
example := C94_fair (cfg := debugCfg) (by decide) (⟨300⟩ : FP .i64 2) ⟨100⟩ ⟨1300⟩ ⟨433⟩ ⟨333⟩ (.deposit ⟨1000⟩)
  (by decide +kernel) (by decide +kernel) (by decide +kernel) (by decide +kernel)
example := C94_fair (cfg := debugCfg) (by decide) (⟨1300⟩ : FP .i64 2) ⟨433⟩ ⟨301⟩ ⟨100⟩ ⟨999⟩ (.redeem ⟨333⟩)
  (by decide +kernel) (by decide +kernel) (by decide +kernel) (by decide +kernel)

/-- C94: a deposit reports no error if the product and the new assets and shares are in range, a redemption
of less than all the shares if the product is; a redemption of all the shares or more is refused. -/
theorem C94_returns {cfg : Cfg} (hv : Valid cfg L P) (x y z : FP L P) (hx : 0 < value x)
    (hy : 0 < value y) (hz : 0 ≤ value z) :
    (value z * value y ≤ maxValue L P → value x + value z ≤ maxValue L P →
      value y + value z * value y / value x ≤ maxValue L P →
      ∃ r, vault cfg .floor (x, y) (.deposit z) = .ok r) ∧
    (value z * value x ≤ maxValue L P → value z < value y →
      ∃ r, vault cfg .floor (x, y) (.redeem z) = .ok r) ∧
    (value y ≤ value z → vault cfg .floor (x, y) (.redeem z) = .err .overflow) := by
  refine ⟨fun h1 h2 h3 => ?_, fun h1 h2 => ?_, fun h => ?_⟩
  · obtain ⟨s, k1⟩ := prorate_returns hv hz hy.le hx h1 (by linarith)
    obtain ⟨s0, s1, -⟩ := prorate_floor hv hz hy.le hx k1
    rw [← le_div_iff₀ hx] at s1
    obtain ⟨u, k2, -⟩ := (C01_cadd_exact x z).1 (representable_add_le (by linarith) h2)
    obtain ⟨v, k3, -⟩ := (C01_cadd_exact y s).1 (representable_add_le (by linarith) (by linarith))
    exact ⟨((u, v), s), by simp only [vault]; rw [k1, ok_bind, k2, ok_bind, k3]; rfl⟩
  · have hxM : value x ≤ maxValue L P := (C52_bounds x).2.trans_eq C52_bounds_value.2
    have q : value z * value x / value y ≤ value x := by
      rw [div_le_iff₀ hy, mul_comm]
      exact mul_le_mul_of_nonneg_left h2.le hx.le
    obtain ⟨a, k1⟩ := prorate_returns hv hz hx.le hy h1 (q.trans hxM)
    have a0 := (prorate_floor hv hz hx.le hy k1).1
    obtain ⟨u, k2, -⟩ := (C02_csub_exact x a).1 (representable_sub_nonneg hx.le a0)
    obtain ⟨v, k3, -⟩ := (C02_csub_exact y z).1 (representable_sub_nonneg hy.le hz)
    refine ⟨((u, v), a), ?_⟩
    simp only [vault]
    rw [if_pos (by rw [C54_cmp, compare_lt_iff_lt]; exact h2), k1, ok_bind, k2, ok_bind, k3]
    rfl
  · simp only [vault]
    rw [if_neg (by rw [C54_cmp, compare_lt_iff_lt, not_lt]; exact h)]

example := (C94_returns (cfg := debugCfg) (by decide) (⟨300⟩ : FP .i64 2) ⟨100⟩ ⟨1000⟩ (by decide +kernel)
  (by decide +kernel) (by decide +kernel)).1 (by decide +kernel) (by decide +kernel) (by decide +kernel)
example := (C94_returns (cfg := debugCfg) (by decide) (⟨1300⟩ : FP .i64 2) ⟨433⟩ ⟨333⟩ (by decide +kernel)
  (by decide +kernel) (by decide +kernel)).2.1 (by decide +kernel) (by decide +kernel)
example := (C94_returns (cfg := debugCfg) (by decide) (⟨1300⟩ : FP .i64 2) ⟨433⟩ ⟨433⟩ (by decide +kernel)
  (by decide +kernel) (by decide +kernel)).2.2 (by decide +kernel)

/-- C97: interest on a nonnegative balance reports no error as long as the exact balance, with the error
bound of `C97_compound`, is in range. -/
theorem C97_returns {cfg : Cfg} (hv : Valid cfg L P) (mode : RoundMode)
    (hm : mode = .nearest → ¬ (L = .i128 ∧ P = 38)) (r : FP L P) (hr : 0 ≤ value r) (n : Nat)
    (x : FP L P) (hx : 0 ≤ value x)
    (h : value x * (1 + value r) ^ n +
      value (FP.epsilon : FP L P) * ∑ i ∈ Finset.range n, (1 + value r) ^ i ≤ maxValue L P) :
    ∃ y, compound cfg mode r n x = .ok y := by
  have hz : value (FP.zero : FP L P) = 0 := C52_zero
  have hε : 0 < value (FP.epsilon : FP L P) := by
    rw [C52_epsilon.1]; have := ten_pow_pos P; positivity
  induction n generalizing x with
  | zero => exact ⟨x, rfl⟩
  | succ n ih =>
    have hg : (1 : ℚ) ≤ (1 + value r) ^ n := one_le_pow₀ (by linarith)
    have hs : 0 ≤ ∑ i ∈ Finset.range n, (1 + value r) ^ i :=
      Finset.sum_nonneg fun i _ => by positivity
    have p0 := mul_nonneg hx hr
    have i0 := roundTo_nonneg P mode p0
    have i1 : roundTo P mode (value x * value r) < value x * value r + value (FP.epsilon : FP L P) := by
      have := (abs_lt.1 (roundTo_error P mode (value x * value r))).2
      rw [C52_epsilon.1]; linarith
    rw [Finset.sum_range_succ] at h
    have key : (value x + roundTo P mode (value x * value r)) * (1 + value r) ^ n +
        value (FP.epsilon : FP L P) * ∑ i ∈ Finset.range n, (1 + value r) ^ i ≤ maxValue L P := by
      refine le_trans ?_ h
      have := mul_le_mul_of_nonneg_right i1.le (zero_le_one.trans hg)
      rw [pow_succ]
      linarith
    have key2 : value x + roundTo P mode (value x * value r) ≤ maxValue L P := by
      have a := le_mul_of_one_le_right (add_nonneg hx i0) hg
      have b := mul_nonneg hε.le hs
      linarith
    have rep : Representable L P (roundTo P mode (value x * value r)) := by
      unfold roundTo at i0 key2 ⊢
      refine representable_of_abs_le ?_
      rw [abs_of_nonneg i0]
      linarith
    obtain ⟨i, k1, e1⟩ := (C07_rmul_partial hv x r mode hm).1 rep
    rw [← e1] at key key2 i0
    obtain ⟨y, k2, e2⟩ := (C01_cadd_exact x i).1 (representable_add_le (by linarith) key2)
    rw [← e2] at key
    obtain ⟨w, k3⟩ := ih y (by rw [e2]; linarith) key
    exact ⟨w, by unfold compound; rw [k1, ok_bind, k2, ok_bind, k3]⟩

example := C97_returns (cfg := debugCfg) (by decide) .nearest (by decide) (⟨5⟩ : FP .i64 2) (by decide +kernel)
  10 ⟨10000⟩ (by decide +kernel) (by decide +kernel)

end Fixnum
