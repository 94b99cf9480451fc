import Verif.Props.Balances
import Verif.Props.Derived
import Verif.Props.WeightedMean
import Verif.Props.Power

/-! # Property C131: rates in brackets

Client code: a progressive tax, or a fee with steps.  Each bracket has a width and a rate; `part =
rest.min(width)`, `tax = tax.cadd(part.rmul(rate, mode)?)?`, `rest = rest.csub(part)?`. -/

namespace Fixnum

open Res Spec

variable {L : Layout} {P : Nat}

/-- The client: what is due on `x`, the brackets as pairs of width and rate. -/
def bracketTax (cfg : Cfg) (mode : RoundMode) : List (FP L P × FP L P) → FP L P → Res ArithErr (FP L P)
  | [], _ => .ok FP.zero
  | (w, r) :: bs, x => do
    let part := FP.ordMin x w
    let t ← FP.rmul cfg part r mode
    let rest ← FP.csub x part
    let more ← bracketTax cfg mode bs rest
    FP.cadd t more

/-- Exactly: of each bracket, what lies between its lower and its upper end, `lo` being the lower end of
the first. -/
def Spec.bracketTax : List (ℚ × ℚ) → ℚ → ℚ → ℚ
  | [], _, _ => 0
  | (w, r) :: bs, lo, x => (max lo (min x (lo + w)) - lo) * r + Spec.bracketTax bs (lo + w) x

/-- The brackets of numbers as brackets of rationals. -/
def bracketValues (bs : List (FP L P × FP L P)) : List (ℚ × ℚ) := bs.map fun b => (value b.1, value b.2)

/-- Widths are not negative, rates from 0 to 1. -/
def Spec.BracketsOk (bs : List (ℚ × ℚ)) : Prop := ∀ b ∈ bs, 0 ≤ b.1 ∧ 0 ≤ b.2 ∧ b.2 ≤ 1

theorem ordMin_value (a b : FP L P) : value (FP.ordMin a b) = min (value a) (value b) := by
  unfold FP.ordMin
  split
  · rename_i h
    rw [C54_cmp, compare_lt_iff_lt] at h
    rw [min_eq_right h.le]
  · rename_i h
    rw [C54_cmp, compare_lt_iff_lt, not_lt] at h
    rw [min_eq_left h]

theorem roundTo_shift {mode : RoundMode} (q : ℚ) (k : Int) (hm : mode = .nearest → 0 ≤ q ∧ 0 ≤ k) :
    roundTo P mode (q + k / 10 ^ P) = roundTo P mode q + k / 10 ^ P := by
  have e : (q + k / 10 ^ P) * 10 ^ P = q * 10 ^ P + k := by
    rw [add_mul, div_mul_cancel₀ _ (ten_pow_ne P)]
  unfold roundTo
  rw [e, ← add_div]
  congr 1
  cases mode with
  | nearest =>
    obtain ⟨h1, h2⟩ := hm rfl
    have h1 : 0 ≤ q * 10 ^ P := mul_nonneg h1 (ten_pow_pos P).le
    have h2 : (0 : ℚ) ≤ k := by exact_mod_cast h2
    change ((Spec.nearest (q * 10 ^ P + (k : ℚ)) : Int) : ℚ) = ((Spec.nearest (q * 10 ^ P) : Int) : ℚ) + k
    unfold Spec.nearest
    rw [if_pos h1, if_pos (add_nonneg h1 h2), add_right_comm, Int.floor_add_intCast]
    push_cast; ring
  | floor =>
    change ((⌊q * 10 ^ P + (k : ℚ)⌋ : Int) : ℚ) = ((⌊q * 10 ^ P⌋ : Int) : ℚ) + k
    rw [Int.floor_add_intCast]; push_cast; ring
  | ceil =>
    change ((⌈q * 10 ^ P + (k : ℚ)⌉ : Int) : ℚ) = ((⌈q * 10 ^ P⌉ : Int) : ℚ) + k
    rw [Int.ceil_add_intCast]; push_cast; ring

/-- A rate of at most 1 takes no more of an increase than the increase. -/
theorem roundTo_rate {mode : RoundMode} {a b : FP L P} (hm : mode = .nearest → 0 ≤ value a) {r : ℚ}
    (h0 : 0 ≤ r) (h1 : r ≤ 1) (hab : value a ≤ value b) :
    roundTo P mode (value a * r) ≤ roundTo P mode (value b * r) ∧
    roundTo P mode (value b * r) ≤ roundTo P mode (value a * r) + (value b - value a) := by
  refine ⟨roundTo_mono P mode (mul_le_mul_of_nonneg_right hab h0), ?_⟩
  have e : value b - value a = ((b.inner.toInt - a.inner.toInt : Int) : ℚ) / 10 ^ P := by
    unfold value; push_cast; ring
  have hk : 0 ≤ b.inner.toInt - a.inner.toInt := by
    rw [value_le_iff] at hab
    omega
  rw [e, ← roundTo_shift _ _ fun h => ⟨mul_nonneg (hm h) h0, hk⟩, ← e]
  exact roundTo_mono P mode (by nlinarith)

/-- What `rmul` returns is the rounded product, in every build, if that is not negative. -/
theorem rmul_ok_nonneg {cfg : Cfg} (hv : Valid cfg L P) {mode : RoundMode} {a b r : FP L P}
    (h0 : mode = .nearest → 0 ≤ value a * value b) (h : FP.rmul cfg a b mode = .ok r) :
    value r = roundTo P mode (value a * value b) := by
  by_cases hs : mode = .nearest → RmulSafe L P (a.inner.toInt * b.inner.toInt)
  · exact ((C07_rmul_remainder_partial hv a b mode hs).ok_iff r).1 h
  · rw [Classical.not_imp] at hs
    obtain ⟨rfl, hs⟩ := hs
    cases hc : cfg.overflowChecks
    · have k := ((C07_rmul_wrapped hv hc a b hs).ok_iff r).1 h
      rwa [if_pos (h0 rfl)] at k
    · rw [(C07_rmul_panics_iff hv hc a b).2 hs] at h
      cases h

theorem bracketTax_cons {cfg : Cfg} (hv : Valid cfg L P) {mode : RoundMode} {w r x t : FP L P}
    (hm : mode = .nearest → 0 ≤ value x ∧ 0 ≤ value w ∧ 0 ≤ value r) {bs : List (FP L P × FP L P)}
    (h : bracketTax cfg mode ((w, r) :: bs) x = .ok t) :
    ∃ rest more : FP L P, value rest = value x - min (value x) (value w) ∧
      bracketTax cfg mode bs rest = .ok more ∧
      value t = roundTo P mode (min (value x) (value w) * value r) + value more := by
  unfold bracketTax at h
  dsimp only at h
  obtain ⟨p, h1, h⟩ := bind_ok_of h
  obtain ⟨rest, h2, h⟩ := bind_ok_of h
  obtain ⟨more, h3, h⟩ := bind_ok_of h
  refine ⟨rest, more, ?_, h3, ?_⟩
  · rw [C02_csub_ok _ _ _ h2, ordMin_value]
  · rw [C01_cadd_ok _ _ _ h, rmul_ok_nonneg hv (fun e => ?_) h1, ordMin_value]
    obtain ⟨k1, k2, k3⟩ := hm e
    rw [ordMin_value]
    exact mul_nonneg (le_min k1 k2) k3

theorem bracketsOk_tail {b : FP L P × FP L P} {bs : List (FP L P × FP L P)}
    (hb : Spec.BracketsOk (bracketValues (b :: bs))) : Spec.BracketsOk (bracketValues bs) := by
  intro c hc
  apply hb c
  unfold bracketValues at hc ⊢
  rw [List.map_cons]
  exact List.mem_cons_of_mem _ hc

/-- **C131** who has more pays no less, and never keeps less. -/
theorem C131_order {cfg : Cfg} (hv : Valid cfg L P) {mode : RoundMode}
    {bs : List (FP L P × FP L P)} (hb : Spec.BracketsOk (bracketValues bs)) {x y s t : FP L P}
    (hm : mode = .nearest → 0 ≤ value x) (hxy : value x ≤ value y) (hx : bracketTax cfg mode bs x = .ok s)
    (hy : bracketTax cfg mode bs y = .ok t) :
    value s ≤ value t ∧ value x - value s ≤ value y - value t := by
  induction bs generalizing x y s t with
  | nil =>
    cases hx
    cases hy
    exact ⟨le_refl _, by linarith⟩
  | cons b bs ih =>
    obtain ⟨w, r⟩ := b
    obtain ⟨w0, r0, r1⟩ := hb (value w, value r) (by simp [bracketValues])
    dsimp only at w0 r0 r1
    obtain ⟨x', s', a1, a2, a3⟩ := bracketTax_cons hv (fun e => ⟨hm e, w0, r0⟩) hx
    obtain ⟨y', t', b1, b2, b3⟩ := bracketTax_cons hv (fun e => ⟨(hm e).trans hxy, w0, r0⟩) hy
    have hb' := bracketsOk_tail hb
    have hp : value (FP.ordMin x w) ≤ value (FP.ordMin y w) := by
      rw [ordMin_value, ordMin_value]
      exact min_le_min_right _ hxy
    have k := roundTo_rate (mode := mode) (fun e => by rw [ordMin_value]; exact le_min (hm e) w0) r0 r1 hp
    rw [ordMin_value, ordMin_value] at k hp
    have hrest : value x' ≤ value y' := by
      rw [a1, b1]
      rcases le_total (value x) (value w) with h | h <;> rcases le_total (value y) (value w) with g | g
      · rw [min_eq_left h, min_eq_left g]; linarith
      · rw [min_eq_left h, min_eq_right g]; linarith
      · rw [min_eq_right h, min_eq_left g]; linarith
      · rw [min_eq_right h, min_eq_right g]; linarith
    have i := ih hb' (fun _ => by rw [a1]; linarith [min_le_left (value x) (value w)]) hrest a2 b2
    rw [a3, b3]
    constructor
    · linarith [k.1, i.1]
    · linarith [k.2, i.2]

/-- Two brackets for the examples. -/
theorem twoBrackets :
    Spec.BracketsOk (bracketValues [((⟨1000⟩ : FP .i64 1), (⟨1⟩ : FP .i64 1)), (⟨2000⟩, ⟨3⟩)]) := by
  intro b hb
  simp only [bracketValues, List.map_cons, List.map_nil, List.mem_cons, List.not_mem_nil,
    or_false] at hb
  rcases hb with rfl | rfl
  · dsimp only
    rw [value_eq _ 1000 (by decide), value_eq _ 1 (by decide)]; norm_num
  · dsimp only
    rw [value_eq _ 2000 (by decide), value_eq _ 3 (by decide)]; norm_num

/-- 10% of the first 100, 30% of the next 200, half of the next 10000. -/
example : bracketTax debugCfg .floor [(⟨1000⟩, ⟨1⟩), (⟨2000⟩, ⟨3⟩), (⟨100000⟩, ⟨5⟩)] (⟨3333⟩ : FP .i64 1) =
    .ok ⟨866⟩ := by decide +kernel
example := C131_order (cfg := debugCfg) (by decide) (mode := .nearest)
  (bs := [(⟨1000⟩, ⟨1⟩), (⟨2000⟩, ⟨3⟩)]) twoBrackets
  (x := (⟨995⟩ : FP .i64 1)) (y := ⟨1006⟩) (s := ⟨100⟩) (t := ⟨102⟩)
  (fun _ => by rw [value_eq _ 995 (by decide)]; norm_num)
  (by rw [value_eq _ 995 (by decide), value_eq _ 1006 (by decide)]; norm_num) (by decide +kernel)
  (by decide +kernel)

theorem spec_bracketTax_shift (bs : List (ℚ × ℚ)) (lo x : ℚ) :
    Spec.bracketTax bs lo x = Spec.bracketTax bs 0 (x - lo) := by
  induction bs generalizing lo x with
  | nil => rfl
  | cons b bs ih =>
    obtain ⟨w, r⟩ := b
    unfold Spec.bracketTax
    rw [ih (lo + w) x, ih (0 + w) (x - lo)]
    have e : max lo (min x (lo + w)) - lo = max 0 (min (x - lo) (0 + w)) - 0 := by
      rw [zero_add, sub_zero, ← max_sub_sub_right, sub_self, ← min_sub_sub_right, add_sub_cancel_left]
    rw [e]
    congr 2
    ring

theorem spec_bracketTax_nonpos (bs : List (ℚ × ℚ)) (hb : Spec.BracketsOk bs) {x : ℚ} (hx : x ≤ 0) :
    Spec.bracketTax bs 0 x = 0 := by
  induction bs generalizing x with
  | nil => rfl
  | cons b bs ih =>
    obtain ⟨w, r⟩ := b
    have hw : 0 ≤ w := (hb (w, r) List.mem_cons_self).1
    unfold Spec.bracketTax
    rw [spec_bracketTax_shift, ih (fun c hc => hb c (List.mem_cons_of_mem _ hc)) (by linarith),
      max_eq_left (le_trans (min_le_left _ _) hx)]
    ring

/-- One bracket off an amount that is not negative. -/
theorem spec_bracketTax_cons (bs : List (ℚ × ℚ)) (w r : ℚ) (hb : Spec.BracketsOk ((w, r) :: bs)) {x : ℚ}
    (hx : 0 ≤ x) :
    Spec.bracketTax ((w, r) :: bs) 0 x = min x w * r + Spec.bracketTax bs 0 (x - min x w) := by
  have hw : 0 ≤ w := (hb (w, r) List.mem_cons_self).1
  have hb' : Spec.BracketsOk bs := fun c hc => hb c (List.mem_cons_of_mem _ hc)
  rw [Spec.bracketTax, zero_add, sub_zero, max_eq_right (le_min hx hw), spec_bracketTax_shift]
  rcases le_total x w with h | h
  · rw [min_eq_left h, sub_self, spec_bracketTax_nonpos bs hb' (by linarith),
      spec_bracketTax_nonpos bs hb' (le_refl _)]
  · rw [min_eq_right h]

/-- **C131** `Floor` is never more than the exact amount due, `Ceil` never less, and both are off by less
than a unit per bracket. -/
theorem C131_error {cfg : Cfg} (hv : Valid cfg L P) {bs : List (FP L P × FP L P)} (hne : bs ≠ [])
    (hb : Spec.BracketsOk (bracketValues bs)) {x t : FP L P} (hx : 0 ≤ value x) :
    (bracketTax cfg .floor bs x = .ok t →
      value t ≤ Spec.bracketTax (bracketValues bs) 0 (value x) ∧
      Spec.bracketTax (bracketValues bs) 0 (value x) < value t + bs.length / 10 ^ P) ∧
    (bracketTax cfg .ceil bs x = .ok t →
      Spec.bracketTax (bracketValues bs) 0 (value x) ≤ value t ∧
      value t < Spec.bracketTax (bracketValues bs) 0 (value x) + bs.length / 10 ^ P) := by
  have rest0 : ∀ {x w : ℚ}, 0 ≤ x - min x w := by
    intro x w
    linarith [min_le_left x w]
  have key : ∀ (bs : List (FP L P × FP L P)), Spec.BracketsOk (bracketValues bs) →
      ∀ x t : FP L P, 0 ≤ value x →
      (bracketTax cfg .floor bs x = .ok t →
        value t ≤ Spec.bracketTax (bracketValues bs) 0 (value x) ∧
        (bs = [] ∧ Spec.bracketTax (bracketValues bs) 0 (value x) = value t ∨
          Spec.bracketTax (bracketValues bs) 0 (value x) < value t + bs.length / 10 ^ P)) ∧
      (bracketTax cfg .ceil bs x = .ok t →
        Spec.bracketTax (bracketValues bs) 0 (value x) ≤ value t ∧
        (bs = [] ∧ Spec.bracketTax (bracketValues bs) 0 (value x) = value t ∨
          value t < Spec.bracketTax (bracketValues bs) 0 (value x) + bs.length / 10 ^ P)) := by
    intro bs
    induction bs with
    | nil =>
      intro _ x t _
      constructor <;> intro h <;> cases h <;>
        exact ⟨by rw [C52_zero]; exact le_refl _, .inl ⟨rfl, C52_zero.symm⟩⟩
    | cons b bs ih =>
      obtain ⟨w, r⟩ := b
      intro hb x t hx
      have hb' := bracketsOk_tail hb
      have e := spec_bracketTax_cons (bracketValues bs) (value w) (value r) hb hx
      change Spec.bracketTax (bracketValues ((w, r) :: bs)) 0 (value x) = _ at e
      rw [e, List.length_cons]
      push_cast
      rw [add_div]
      constructor
      · intro h
        obtain ⟨y, s, a1, a2, a3⟩ := bracketTax_cons hv (mode := .floor) (by simp) h
        obtain ⟨i1, i2⟩ := (ih hb' y s (by rw [a1]; exact rest0)).1 a2
        rw [a1] at i1 i2
        have f1 := (roundTo_floor_spec P (min (value x) (value w) * value r)).1
        have f2 := roundTo_floor_gap P (min (value x) (value w) * value r)
        refine ⟨by linarith, .inr ?_⟩
        rcases i2 with ⟨rfl, i2⟩ | i2
        · simp only [List.length_nil, Nat.cast_zero, zero_div]
          linarith
        · linarith
      · intro h
        obtain ⟨y, s, a1, a2, a3⟩ := bracketTax_cons hv (mode := .ceil) (by simp) h
        obtain ⟨i1, i2⟩ := (ih hb' y s (by rw [a1]; exact rest0)).2 a2
        rw [a1] at i1 i2
        have f1 := (roundTo_ceil_spec P (min (value x) (value w) * value r)).1
        have f2 := roundTo_ceil_gap P (min (value x) (value w) * value r)
        refine ⟨by linarith, .inr ?_⟩
        rcases i2 with ⟨rfl, i2⟩ | i2
        · simp only [List.length_nil, Nat.cast_zero, zero_div]
          linarith
        · linarith
  obtain ⟨k1, k2⟩ := key bs hb x t hx
  exact ⟨fun h => ⟨(k1 h).1, (k1 h).2.resolve_left fun c => hne c.1⟩,
    fun h => ⟨(k2 h).1, (k2 h).2.resolve_left fun c => hne c.1⟩⟩

example := (C131_error (cfg := debugCfg) (by decide) (by simp) twoBrackets (x := ⟨1007⟩) (t := ⟨102⟩)
  (by rw [value_eq _ 1007 (by decide)]; norm_num)).1 (by decide +kernel)
example := (C131_error (cfg := debugCfg) (by decide) (by simp) twoBrackets (x := ⟨1007⟩) (t := ⟨103⟩)
  (by rw [value_eq _ 1007 (by decide)]; norm_num)).2 (by decide +kernel)

/-- **C131** to nearest, half a unit per bracket. -/
theorem C131_nearest {cfg : Cfg} (hv : Valid cfg L P) {bs : List (FP L P × FP L P)}
    (hb : Spec.BracketsOk (bracketValues bs)) {x t : FP L P} (hx : 0 ≤ value x)
    (h : bracketTax cfg .nearest bs x = .ok t) :
    |value t - Spec.bracketTax (bracketValues bs) 0 (value x)| ≤ bs.length / 2 / 10 ^ P := by
  induction bs generalizing x t with
  | nil =>
    cases h
    rw [C52_zero]
    simp [bracketValues, Spec.bracketTax]
  | cons b bs ih =>
    obtain ⟨w, r⟩ := b
    obtain ⟨w0, r0, r1⟩ := hb (value w, value r) (by simp [bracketValues])
    dsimp only at w0 r0 r1
    have e := spec_bracketTax_cons (bracketValues bs) (value w) (value r) hb hx
    change Spec.bracketTax (bracketValues ((w, r) :: bs)) 0 (value x) = _ at e
    obtain ⟨y, s, a1, a2, a3⟩ := bracketTax_cons hv (fun _ => ⟨hx, w0, r0⟩) h
    have i := ih (bracketsOk_tail hb) (by rw [a1]; linarith [min_le_left (value x) (value w)]) a2
    have n := roundTo_nearest_error P (min (value x) (value w) * value r)
    rw [a1] at i
    rw [e, a3, List.length_cons]
    push_cast
    rw [add_div, add_div]
    rw [abs_le] at i n ⊢
    constructor
    · linarith [i.1, n.1]
    · linarith [i.2, n.2]

example := C131_nearest (cfg := debugCfg) (by decide) twoBrackets (x := ⟨1007⟩) (t := ⟨102⟩)
  (by rw [value_eq _ 1007 (by decide)]; norm_num) (by decide +kernel)

/-- Exactly 10 + 0.21 are due on 100.7. -/
example : Spec.bracketTax [(100, 1 / 10), (200, 3 / 10)] 0 (1007 / 10) = 1021 / 100 := by
  norm_num [Spec.bracketTax]

/-- **C131** nothing overflows: on an amount that is not negative something is due, and not more than the
amount. -/
theorem C131_returns {cfg : Cfg} (hv : Valid cfg L P) {mode : RoundMode}
    (hm : mode = .nearest → ¬ (L = .i128 ∧ P = 38))
    {bs : List (FP L P × FP L P)} (hb : Spec.BracketsOk (bracketValues bs)) (x : FP L P)
    (hx : 0 ≤ value x) :
    ∃ t, bracketTax cfg mode bs x = .ok t ∧ 0 ≤ value t ∧ value t ≤ value x := by
  have hz : value (FP.zero : FP L P) = 0 := C52_zero
  induction bs generalizing x with
  | nil => exact ⟨FP.zero, rfl, hz.ge, by rw [hz]; exact hx⟩
  | cons b bs ih =>
    obtain ⟨w, r⟩ := b
    obtain ⟨w0, r0, r1⟩ := hb (value w, value r) (by simp [bracketValues])
    dsimp only at w0 r0 r1
    have hmin := ordMin_value x w
    have p0 : 0 ≤ value (FP.ordMin x w) := by rw [hmin]; exact le_min hx w0
    have p1 : value (FP.ordMin x w) ≤ value x := by rw [hmin]; exact min_le_left _ _
    have q0 : 0 ≤ value (FP.ordMin x w) * value r := mul_nonneg p0 r0
    have q1 : value (FP.ordMin x w) * value r ≤ value (FP.ordMin x w) := mul_le_of_le_one_right p0 r1
    obtain ⟨d, d1, d2⟩ := (C07_rmul_partial hv (FP.ordMin x w) r mode hm).1
      (representable_within mode FP.zero (FP.ordMin x w) (by rw [hz]; exact q0) q1)
    obtain ⟨k1, k2⟩ := roundTo_within mode FP.zero (FP.ordMin x w) (by rw [hz]; exact q0) q1
    rw [← d2, hz] at k1
    rw [← d2] at k2
    obtain ⟨y, y1, y2⟩ := (C02_csub_exact x (FP.ordMin x w)).1
      (representable_sub (c := x) (by linarith) (by linarith))
    obtain ⟨s, s1, s2, s3⟩ := ih (bracketsOk_tail hb) y (by rw [y2]; linarith)
    obtain ⟨t, t1, t2⟩ := (C01_cadd_exact d s).1
      (representable_add (c := x) (by linarith) (by rw [y2] at s3; linarith))
    refine ⟨t, ?_, by rw [t2]; linarith, by rw [t2]; rw [y2] at s3; linarith⟩
    unfold bracketTax
    dsimp only
    rw [d1, ok_bind, y1, ok_bind, s1, ok_bind, t1]

example := C131_returns (cfg := debugCfg) (by decide) (mode := .nearest) (by decide) twoBrackets ⟨1007⟩
  (by rw [value_eq _ 1007 (by decide)]; norm_num)

end Fixnum
