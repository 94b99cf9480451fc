import Verif.Props.Clients
import Verif.Props.Sqrt

/-!
# Properties C88, C89, C90: more client programs

C88: sums with `saturating_add`.  C89: an amount divided among `n` parties.
C90: geometric mean and hypotenuse.
-/

namespace Fixnum

open Res Spec

variable {L : Layout} {P : Nat} {ε : Type}

/-! ## C88 -/

/-- A client of the crate: the sum of a list with `saturating_add`, from the left. -/
def satSum (a : FP L P) (xs : List (FP L P)) : FP L P := xs.foldl FP.saturatingAdd a

theorem sum_sign (xs : List (FP L P)) :
    ((∀ x ∈ xs, 0 ≤ value x) → 0 ≤ (xs.map value).sum) ∧
    ((∀ x ∈ xs, value x ≤ 0) → (xs.map value).sum ≤ 0) := by
  induction xs with
  | nil => simp
  | cons x xs ih =>
    rw [List.map_cons, List.sum_cons]
    constructor
    · intro h
      have := ih.1 fun y hy => h y (List.mem_cons_of_mem _ hy)
      linarith [h x List.mem_cons_self]
    · intro h
      have := ih.2 fun y hy => h y (List.mem_cons_of_mem _ hy)
      linarith [h x List.mem_cons_self]

/-- C88: numbers of one sign added to any number give the exact sum, clamped to the range. -/
theorem C88_same_sign (a : FP L P) (xs : List (FP L P))
    (h : (∀ x ∈ xs, 0 ≤ value x) ∨ ∀ x ∈ xs, value x ≤ 0) :
    value (satSum a xs) = clamp L P (value a + (xs.map value).sum) := by
  induction xs generalizing a with
  | nil => simp only [satSum, List.foldl_nil, List.map_nil, List.sum_nil, add_zero, clamp_value]
  | cons x xs ih =>
    have e : satSum a (x :: xs) = satSum (FP.saturatingAdd a x) xs := rfl
    have hr := C52_bounds a
    rw [C52_bounds_value.1, C52_bounds_value.2] at hr
    rw [e, ih _ (h.imp (fun h y hy => h y (List.mem_cons_of_mem _ hy))
      fun h y hy => h y (List.mem_cons_of_mem _ hy)), C05_saturating_add, List.map_cons,
      List.sum_cons]
    have hx : (0 ≤ value x ∧ 0 ≤ (xs.map value).sum) ∨ (value x ≤ 0 ∧ (xs.map value).sum ≤ 0) :=
      h.imp (fun h => ⟨h x List.mem_cons_self, (sum_sign xs).1
        fun y hy => h y (List.mem_cons_of_mem _ hy)⟩)
        fun h => ⟨h x List.mem_cons_self, (sum_sign xs).2
          fun y hy => h y (List.mem_cons_of_mem _ hy)⟩
    generalize (xs.map value).sum = s at *
    generalize value x = v at *
    generalize value a = u at *
    unfold clamp
    generalize minValue L P = m at *
    generalize maxValue L P = M at *
    clear ih h e
    grind

example := C88_same_sign (⟨1⟩ : FP .i16 2) [⟨30000⟩, ⟨3000⟩] (.inl (by decide +kernel))

/-- C88: hence the order does not matter for numbers of one sign. -/
theorem C88_order (a : FP L P) (xs ys : List (FP L P)) (hp : xs.Perm ys)
    (h : (∀ x ∈ xs, 0 ≤ value x) ∨ ∀ x ∈ xs, value x ≤ 0) : satSum a xs = satSum a ys := by
  apply value_inj
  rw [C88_same_sign a xs h, C88_same_sign a ys (h.imp (fun h y hy => h y (hp.mem_iff.2 hy))
    fun h y hy => h y (hp.mem_iff.2 hy)), (hp.map value).sum_eq]

example := C88_order (⟨1⟩ : FP .i16 2) [⟨30000⟩, ⟨3000⟩] [⟨3000⟩, ⟨30000⟩] (.swap ..)
  (.inl (by decide +kernel))

/-- C88: for any signs, larger summands give a sum that is not smaller. -/
theorem C88_mono (a b : FP L P) (xs ys : List (FP L P)) (hab : value a ≤ value b)
    (h : List.Forall₂ (fun x y => value x ≤ value y) xs ys) :
    value (satSum a xs) ≤ value (satSum b ys) := by
  induction h generalizing a b with
  | nil => exact hab
  | cons hxy _ ih =>
    refine ih _ _ ?_
    rw [C05_saturating_add, C05_saturating_add]
    unfold clamp
    exact max_le_max (le_refl _) (min_le_min (le_refl _) (add_le_add hab hxy))

example := C88_mono (⟨1⟩ : FP .i16 2) ⟨5⟩ [⟨30000⟩, ⟨-3000⟩] [⟨32000⟩, ⟨-2000⟩] (by decide +kernel)
  (.cons (by decide +kernel) (.cons (by decide +kernel) .nil))

/-- C88: for any signs, where the checked sum exists the saturating one is the same. -/
theorem C88_checked (a r : FP L P) (xs : List (FP L P))
    (h : runSteps (xs.map ExactStep.add) a = .ok r) : satSum a xs = r := by
  induction xs generalizing a with
  | nil => cases h; rfl
  | cons x xs ih =>
    obtain ⟨b, h1, h2⟩ := bind_ok_of h
    have h1 : FP.cadd a x = .ok b := h1
    show satSum (FP.saturatingAdd a x) xs = r
    have e : FP.saturatingAdd a x = b := by
      apply value_inj
      rw [C05_saturating_add, ← C01_cadd_ok _ _ _ h1, clamp_value]
    rw [e]; exact ih b h2

example := C88_checked (⟨1⟩ : FP .i16 2) ⟨27001⟩ [⟨30000⟩, ⟨-3000⟩] (by decide +kernel)

/-- C88: numbers of both signs: the order matters. -/
theorem C88_outside_domain :
    satSum (FP.max : FP .i64 9) [FP.epsilon, ⟨-1⟩] ≠ satSum FP.max [⟨-1⟩, FP.epsilon] := by decide

example : (∀ x ∈ [(⟨30000⟩ : FP .i16 2), ⟨3000⟩], 0 ≤ x.inner.toInt) ∧
    satSum (⟨1⟩ : FP .i16 2) [⟨30000⟩, ⟨3000⟩] = FP.max := by decide

/-! ## C89 -/

/-- A client of the crate: an amount divided among `n` parties.  The quotient is rounded down; the
units left over go to the first parties, one each. -/
def allocate (cfg : Cfg) (x : FP L P) (n : BitVec L.bits) : Res ArithErr (List (FP L P)) := do
  let q ← FP.rdivInt cfg x n .floor
  let back ← FP.cmul q n
  let rest ← FP.csub x back
  if rest.intoBits.toInt = 0 then .ok (List.replicate n.toInt.toNat q)
  else do
    let up ← FP.cadd q FP.epsilon
    .ok (List.replicate rest.intoBits.toInt.toNat up ++
      List.replicate (n.toInt - rest.intoBits.toInt).toNat q)

/-- An exact multiple of the unit between two numbers of the type is a number of the type. -/
theorem rep_int_within (z : Int) (a b : FP L P) (h1 : value a ≤ (z : ℚ) / 10 ^ P)
    (h2 : (z : ℚ) / 10 ^ P ≤ value b) : Representable L P ((z : ℚ) / 10 ^ P) := by
  have := representable_within .floor a b h1 h2
  have e : roundTo P .floor ((z : ℚ) / 10 ^ P) = (z : ℚ) / 10 ^ P := by
    unfold roundTo
    rw [div_mul_cancel₀ _ (ten_pow_ne P), round_int]
  rwa [e] at this

theorem total_nonneg (xs : List (FP L P)) (x : FP L P) (h : ∀ y ∈ xs, 0 ≤ value y)
    (hs : (xs.map value).sum ≤ value x) :
    ∃ s, total xs = .ok s ∧ value s = (xs.map value).sum := by
  induction xs with
  | nil => exact ⟨FP.zero, rfl, by rw [C52_zero]; simp⟩
  | cons y ys ih =>
    rw [List.map_cons, List.sum_cons] at hs ⊢
    have hy := h y List.mem_cons_self
    have hn := (sum_sign ys).1 fun z hz => h z (List.mem_cons_of_mem _ hz)
    obtain ⟨s, k1, k2⟩ := ih (fun z hz => h z (List.mem_cons_of_mem _ hz)) (by linarith)
    have hrep : Representable L P (value s + value y) := by
      have e : value s + value y = ((s.inner.toInt + y.inner.toInt : Int) : ℚ) / 10 ^ P := by
        unfold value; push_cast; ring
      rw [e]
      apply rep_int_within _ FP.zero x
      · rw [← e, C52_zero, k2]; linarith
      · rw [← e, k2]; linarith
    obtain ⟨t, l1, l2⟩ := (C01_cadd_exact s y).1 hrep
    refine ⟨t, ?_, by rw [l2, k2, add_comm]⟩
    show (total ys >>= fun s => FP.cadd s y) = _
    rw [k1, ok_bind, l1]

/-- C89: every non-negative amount can be divided among any positive number of parties: the shares
add up to the amount exactly (and adding them up does not overflow), each is less than one unit away
from the exact share, any two differ by at most one unit, and the larger ones come first; in every
build. -/
theorem C89_allocate (cfg : Cfg) (x : FP L P) (n : BitVec L.bits) (hx : 0 ≤ value x)
    (hn : 0 < n.toInt) :
    ∃ shares, allocate cfg x n = .ok shares ∧ (shares.length : Int) = n.toInt ∧
      total shares = .ok x ∧
      (∀ s ∈ shares, 0 ≤ value s ∧ |value s - value x / n.toInt| < value (FP.epsilon : FP L P)) ∧
      (∀ s ∈ shares, ∀ t ∈ shares, |value s - value t| ≤ value (FP.epsilon : FP L P)) ∧
      shares.Pairwise (fun s t => value t ≤ value s) := by
  have hp := ten_pow_pos P
  have hq0 : (0 : ℚ) < n.toInt := by exact_mod_cast hn
  have hq1 : (1 : ℚ) ≤ n.toInt := by exact_mod_cast hn
  have hz : value (FP.zero : FP L P) = 0 := C52_zero
  -- the quotient
  obtain ⟨q, hq⟩ : ∃ q, FP.rdivInt cfg x n .floor = .ok q := by
    have hE := C12_rdivInt_partial cfg x n .floor (by omega) (by omega) fun e => by cases e
    obtain ⟨q, h, -⟩ := hE.1 (representable_within .floor FP.zero x
      (by rw [hz]; positivity) (div_le_self hx hq1))
    exact ⟨q, h⟩
  have eq := (rdivInt_directed (by decide) hn).1 hq
  have hw := roundTo_within .floor FP.zero x (q := value x / n.toInt)
      (by rw [hz]; positivity) (div_le_self hx hq1)
  rw [hz, ← eq] at hw
  have hfl := (roundTo_floor_spec P (value x / n.toInt)).1
  have herr := abs_lt.1 (roundTo_error P .floor (value x / n.toInt))
  rw [← eq] at hfl herr
  have hqn : value q * n.toInt ≤ value x := by rwa [le_div_iff₀ hq0] at hfl
  have hqn' : value x < (value q + 1 / 10 ^ P) * n.toInt := by
    rw [← div_lt_iff₀ hq0]; linarith [herr.1]
  -- the product
  obtain ⟨back, hb, eb⟩ : ∃ c, FP.cmul q n = .ok c ∧ value c = value q * n.toInt := by
    apply (C03_cmul_exact q n).1
    have e : value q * n.toInt = ((q.inner.toInt * n.toInt : Int) : ℚ) / 10 ^ P := by
      unfold value; push_cast; ring
    rw [e]
    apply rep_int_within _ FP.zero x
    · rw [← e, hz]; exact mul_nonneg hw.1 hq0.le
    · rw [← e]; exact hqn
  -- the rest
  obtain ⟨rest, hr, er⟩ : ∃ c, FP.csub x back = .ok c ∧ value c = value x - value back := by
    apply (C02_csub_exact x back).1
    have e : value x - value back = ((x.inner.toInt - back.inner.toInt : Int) : ℚ) / 10 ^ P := by
      unfold value; push_cast; ring
    rw [e]
    apply rep_int_within _ FP.zero x
    · rw [← e, hz, eb]; linarith
    · rw [← e, eb]; linarith [mul_nonneg hw.1 hq0.le]
  set k := rest.intoBits.toInt with hk
  have ek : value rest = (k : ℚ) / 10 ^ P := rfl
  have ek' : value x = value q * n.toInt + k / 10 ^ P := by rw [← ek, er, eb]; ring
  have hk0 : 0 ≤ k := by
    have : (0 : ℚ) ≤ (k : ℚ) / 10 ^ P := by linarith
    have := (div_nonneg_iff.1 this).resolve_right (fun h => absurd h.2 (not_le.2 hp))
    exact_mod_cast this.1
  have hkn : k < n.toInt := by
    have h1 : (k : ℚ) / 10 ^ P < 1 / 10 ^ P * n.toInt := by linarith
    have h2 : (k : ℚ) / 10 ^ P < n.toInt / 10 ^ P := by rw [div_eq_mul_one_div (n.toInt : ℚ)]; linarith
    rw [div_lt_div_iff_of_pos_right hp] at h2
    exact_mod_cast h2
  have hqe : |value q - value x / n.toInt| < 1 / 10 ^ P := by
    rw [abs_lt]; exact herr
  rw [C52_epsilon.1]
  have hunit : (0 : ℚ) < 1 / 10 ^ P := by positivity
  by_cases hk1 : k = 0
  · refine ⟨List.replicate n.toInt.toNat q, ?_, ?_, ?_, ?_, ?_, ?_⟩
    · unfold allocate
      rw [hq, ok_bind, hb, ok_bind, hr, ok_bind, if_pos hk1]
    · rw [List.length_replicate]; omega
    · have hsum : ((List.replicate n.toInt.toNat q).map value).sum = value x := by
        rw [List.map_replicate, List.sum_replicate, nsmul_eq_mul, ek', hk1]
        have : ((n.toInt.toNat : Nat) : ℚ) = n.toInt := by
          have : ((n.toInt.toNat : Nat) : Int) = n.toInt := by omega
          exact_mod_cast this
        rw [this]; push_cast; ring
      obtain ⟨s, l1, l2⟩ := total_nonneg (List.replicate n.toInt.toNat q) x
        (fun y hy => by rw [List.eq_of_mem_replicate hy]; exact hw.1) hsum.le
      rw [l1, value_inj (l2.trans hsum)]
    · intro s hs; rw [List.eq_of_mem_replicate hs]; exact ⟨hw.1, hqe⟩
    · intro s hs t ht
      rw [List.eq_of_mem_replicate hs, List.eq_of_mem_replicate ht, sub_self, abs_zero]
      exact hunit.le
    · rw [List.pairwise_replicate]; exact Or.inr (le_refl _)
  · have hk2 : 1 ≤ k := by omega
    have hk2' : (1 : ℚ) ≤ k := by exact_mod_cast hk2
    have hone : (1 : ℚ) / 10 ^ P ≤ k / 10 ^ P := by
      rw [div_le_div_iff_of_pos_right hp]; exact hk2'
    have hqq : value q ≤ value q * n.toInt := le_mul_of_one_le_right hw.1 hq1
    obtain ⟨up, hu, eu⟩ : ∃ c, FP.cadd q FP.epsilon = .ok c ∧
        value c = value q + value (FP.epsilon : FP L P) := by
      apply (C01_cadd_exact q FP.epsilon).1
      have e : value q + value (FP.epsilon : FP L P) = ((q.inner.toInt + 1 : Int) : ℚ) / 10 ^ P := by
        rw [C52_epsilon.1]; unfold value; push_cast; ring
      rw [e]
      apply rep_int_within _ FP.zero x
      · rw [← e, hz, C52_epsilon.1]; linarith [hw.1]
      · rw [← e, C52_epsilon.1]; linarith
    rw [C52_epsilon.1] at eu
    have hue : |value up - value x / n.toInt| < 1 / 10 ^ P := by
      rw [eu, abs_lt]
      constructor
      · linarith [herr.1]
      · have : value q < value x / n.toInt := by
          rw [lt_div_iff₀ hq0, ek']
          have : (0 : ℚ) < k / 10 ^ P := by positivity
          linarith
        linarith
    have hmem : ∀ s ∈ List.replicate k.toNat up ++ List.replicate (n.toInt - k).toNat q,
        s = up ∨ s = q := fun s hs => (List.mem_append.1 hs).imp
          List.eq_of_mem_replicate List.eq_of_mem_replicate
    have hnn : ∀ s ∈ List.replicate k.toNat up ++ List.replicate (n.toInt - k).toNat q,
        0 ≤ value s := by
      intro s hs
      rcases hmem s hs with rfl | rfl
      · rw [eu]; linarith [hw.1]
      · exact hw.1
    refine ⟨List.replicate k.toNat up ++ List.replicate (n.toInt - k).toNat q,
      ?_, ?_, ?_, ?_, ?_, ?_⟩
    · unfold allocate
      rw [hq, ok_bind, hb, ok_bind, hr, ok_bind, if_neg hk1, hu, ok_bind]
    · rw [List.length_append, List.length_replicate, List.length_replicate]; omega
    · have hsum : ((List.replicate k.toNat up ++ List.replicate (n.toInt - k).toNat q).map
          value).sum = value x := by
        rw [List.map_append, List.sum_append, List.map_replicate, List.map_replicate,
          List.sum_replicate, List.sum_replicate, nsmul_eq_mul, nsmul_eq_mul]
        have h1 : ((k.toNat : Nat) : ℚ) = k := by
          have : ((k.toNat : Nat) : Int) = k := by omega
          exact_mod_cast this
        have h2 : (((n.toInt - k).toNat : Nat) : ℚ) = n.toInt - k := by
          have : (((n.toInt - k).toNat : Nat) : Int) = n.toInt - k := by omega
          exact_mod_cast this
        rw [h1, h2, eu, ek']; ring
      obtain ⟨s, l1, l2⟩ := total_nonneg _ x hnn hsum.le
      rw [l1, value_inj (l2.trans hsum)]
    · intro s hs
      refine ⟨hnn s hs, ?_⟩
      rcases hmem s hs with rfl | rfl
      · exact hue
      · exact hqe
    · intro s hs t ht
      rcases hmem s hs with rfl | rfl <;> rcases hmem t ht with rfl | rfl
      · rw [sub_self, abs_zero]; exact hunit.le
      · rw [eu, add_sub_cancel_left, abs_of_pos hunit]
      · rw [eu, abs_sub_comm, add_sub_cancel_left, abs_of_pos hunit]
      · rw [sub_self, abs_zero]; exact hunit.le
    · rw [List.pairwise_append]
      refine ⟨?_, ?_, ?_⟩
      · rw [List.pairwise_replicate]; exact Or.inr (le_refl _)
      · rw [List.pairwise_replicate]; exact Or.inr (le_refl _)
      · intro s hs t ht
        rw [List.eq_of_mem_replicate hs, List.eq_of_mem_replicate ht, eu]
        linarith

example := C89_allocate ⟨true, true, true, true⟩ (⟨1000⟩ : FP .i64 2) 3 (by decide +kernel) (by decide)

/-- Outside C89: for a negative amount the product may overflow. -/
theorem C89_outside_domain (cfg : Cfg) :
    allocate cfg (FP.min : FP .i16 2) 3 = .err .overflow := by
  obtain ⟨o, d, s, i⟩ := cfg
  cases o <;> cases d <;> rfl

example : allocate ⟨true, true, true, true⟩ (⟨1000⟩ : FP .i64 2) 3 =
    .ok [⟨334⟩, ⟨333⟩, ⟨333⟩] := by decide +kernel
example : allocate ⟨true, true, true, true⟩ (FP.max : FP .i16 2) 4 =
    .ok [⟨8192⟩, ⟨8192⟩, ⟨8192⟩, ⟨8191⟩] := by decide +kernel

/-! ## C90 -/

/-- A client of the crate: the geometric mean. -/
def geoMean (cfg : Cfg) (a b : FP L P) (mode : RoundMode) : Res ArithErr (FP L P) := do
  let p ← FP.rmul cfg a b mode
  FP.rsqrt cfg p mode

/-- A client of the crate: the hypotenuse. -/
def hypot (cfg : Cfg) (a b : FP L P) (mode : RoundMode) : Res ArithErr (FP L P) := do
  let p ← FP.rmul cfg a a mode
  let q ← FP.rmul cfg b b mode
  let s ← FP.cadd p q
  FP.rsqrt cfg s mode

theorem rmul_floor_ceil {cfg : Cfg} (hv : Valid cfg L P) (a b p : FP L P) :
    (FP.rmul cfg a b .floor = .ok p →
      value p ≤ value a * value b ∧ value a * value b < value p + 1 / 10 ^ P) ∧
    (FP.rmul cfg a b .ceil = .ok p →
      value a * value b ≤ value p ∧ value p < value a * value b + 1 / 10 ^ P) := by
  constructor <;> intro h
  · have e := ((C07_rmul_partial hv a b .floor (by simp)).ok_iff p).1 h
    have h1 := abs_lt.1 (roundTo_error P .floor (value a * value b))
    rw [e]
    exact ⟨(roundTo_floor_spec P _).1, by linarith [h1.1]⟩
  · have e := ((C07_rmul_partial hv a b .ceil (by simp)).ok_iff p).1 h
    have h1 := abs_lt.1 (roundTo_error P .ceil (value a * value b))
    rw [e]
    exact ⟨(roundTo_ceil_spec P _).1, by linarith [h1.2]⟩

/-- The root as a comparison of squares. -/
theorem rsqrt_squares {cfg : Cfg} (hv : Valid cfg L P) (a s : FP L P) :
    (FP.rsqrt cfg a .floor = .ok s → 0 ≤ value s ∧ value s * value s ≤ value a ∧
      value a < (value s + 1 / 10 ^ P) * (value s + 1 / 10 ^ P)) ∧
    (FP.rsqrt cfg a .ceil = .ok s → 0 ≤ value s ∧ value a ≤ value s * value s) := by
  have key : ∀ mode, FP.rsqrt cfg a mode = .ok s → 0 ≤ value s := by
    intro mode h
    by_cases ha : 0 ≤ value a
    · obtain ⟨t, h1, ⟨n, hn⟩, h2⟩ := C22_rsqrt hv a ha mode
      rw [h] at h1
      cases h1
      have hp : (0 : ℝ) < 10 ^ P := by positivity
      have h0 := Real.sqrt_nonneg ((value a : ℚ) : ℝ)
      have hlt : (-1 : ℝ) / 10 ^ P < (value s : ℝ) := by
        have e : (-1 : ℝ) / 10 ^ P = -(1 / 10 ^ P) := by ring
        have hu : (0 : ℝ) < 1 / 10 ^ P := by positivity
        have e2 : (1 : ℝ) / 2 / 10 ^ P = 1 / 10 ^ P / 2 := by ring
        rw [e]
        cases mode <;> simp only at h2
        · linarith [h2.2]
        · rw [e2] at h2; have := abs_lt.1 h2; linarith [this.1]
        · linarith [h2.2]
      rw [hn] at hlt ⊢
      push_cast at hlt
      rw [div_lt_div_iff_of_pos_right hp] at hlt
      have : (-1 : Int) < n := by exact_mod_cast hlt
      have : (0 : Int) ≤ n := by omega
      have : (0 : ℚ) ≤ n := by exact_mod_cast this
      positivity
    · rw [(C22_rsqrt_domain hv a mode).2 (not_le.1 ha)] at h
      cases h
  constructor <;> intro h
  · obtain ⟨-, h1, h2⟩ := C68_square_of_root hv a s h
    rw [C52_epsilon.1] at h2
    exact ⟨key _ h, h1, h2⟩
  · exact ⟨key _ h, (C68_square_of_root_ceil hv a s h).1⟩

/-- C90: the geometric mean rounded down is at most the arithmetic mean rounded down. -/
theorem C90_am_gm {cfg : Cfg} (hv : Valid cfg L P) (a b g m : FP L P) (ha : 0 ≤ value a)
    (hb : 0 ≤ value b) (h1 : geoMean cfg a b .floor = .ok g)
    (h2 : (FP.halfSum cfg a b .floor : Res ε (FP L P)) = .ok m) : value g ≤ value m := by
  obtain ⟨p, k1, k2⟩ := bind_ok_of h1
  have e1 := ((rmul_floor_ceil hv a b p).1 k1).1
  obtain ⟨g0, g1, -⟩ := (rsqrt_squares hv p g).1 k2
  obtain ⟨r, l1, l2⟩ := C16_half_sum_directed (ε := ε) cfg a b .floor (by decide)
  rw [h2] at l1
  cases l1
  rw [l2]
  apply (roundTo_floor_spec P _).2
  show value g ≤ _
  by_contra hc
  have hc := not_le.1 hc
  nlinarith [sq_nonneg (value a - value b)]

example := C90_am_gm (ε := Unit) (cfg := ⟨true, true, true, true⟩) (by decide) (⟨20000⟩ : FP .i64 4)
  ⟨80000⟩ ⟨40000⟩ ⟨50000⟩ (by decide +kernel) (by decide +kernel) (by decide +kernel)
  (by decide +kernel)

/-- C90: the geometric means rounded down and up enclose the exact one, and lie below the larger and
above the smaller number respectively. -/
theorem C90_geo_mean {cfg : Cfg} (hv : Valid cfg L P) (a b g : FP L P) (ha : 0 ≤ value a) :
    (geoMean cfg a b .floor = .ok g →
      value g * value g ≤ value a * value b ∧ value g ≤ max (value a) (value b)) ∧
    (geoMean cfg a b .ceil = .ok g →
      value a * value b ≤ value g * value g ∧ min (value a) (value b) ≤ value g) := by
  constructor <;> intro h
  · obtain ⟨p, k1, k2⟩ := bind_ok_of h
    have e1 := ((rmul_floor_ceil hv a b p).1 k1).1
    obtain ⟨g0, g1, -⟩ := (rsqrt_squares hv p g).1 k2
    refine ⟨le_trans g1 e1, ?_⟩
    by_contra hc
    obtain ⟨c1, c2⟩ := max_lt_iff.1 (not_le.1 hc)
    nlinarith
  · obtain ⟨p, k1, k2⟩ := bind_ok_of h
    have e1 := ((rmul_floor_ceil hv a b p).2 k1).1
    obtain ⟨g0, g1⟩ := (rsqrt_squares hv p g).2 k2
    refine ⟨le_trans e1 g1, ?_⟩
    by_contra hc
    obtain ⟨c1, c2⟩ := lt_min_iff.1 (not_le.1 hc)
    nlinarith

example := (C90_geo_mean (cfg := ⟨true, true, true, true⟩) (by decide) (⟨20000⟩ : FP .i64 4) ⟨70000⟩
  ⟨37416⟩ (by decide +kernel)).1 (by decide +kernel)

/-- C90: the geometric mean rounded down exists for all non-negative numbers whose product does. -/
theorem C90_geo_mean_exists {cfg : Cfg} (hv : Valid cfg L P) (a b p : FP L P) (ha : 0 ≤ value a)
    (hb : 0 ≤ value b) (mode : RoundMode) (h : FP.rmul cfg a b mode = .ok p) :
    ∃ g, geoMean cfg a b mode = .ok g := by
  have hp : 0 ≤ value p := by
    obtain ⟨m, e⟩ := rmul_some hv h
    rw [e, ← (C52_zero (L := L) (P := P)), ← roundTo_value m (FP.zero : FP L P), C52_zero]
    exact roundTo_mono P m (mul_nonneg ha hb)
  obtain ⟨g, hg, -⟩ := C22_rsqrt hv p hp mode
  exact ⟨g, by unfold geoMean; rw [h, ok_bind, hg]⟩

example := C90_geo_mean_exists (cfg := ⟨true, true, true, true⟩) (by decide) (⟨20000⟩ : FP .i64 4)
  ⟨70000⟩ ⟨140000⟩ (by decide +kernel) (by decide +kernel) .floor (by decide +kernel)

/-- C90: the hypotenuse rounded up is at least either leg; rounded down it is at most their sum, and
short of the exact one by the roundings only. -/
theorem C90_hypot {cfg : Cfg} (hv : Valid cfg L P) (a b c : FP L P) :
    (hypot cfg a b .ceil = .ok c → |value a| ≤ value c ∧ |value b| ≤ value c ∧
      value a ^ 2 + value b ^ 2 ≤ value c ^ 2) ∧
    (hypot cfg a b .floor = .ok c → 0 ≤ value c ∧ value c ≤ |value a| + |value b| ∧
      value c ^ 2 ≤ value a ^ 2 + value b ^ 2 ∧
      value a ^ 2 + value b ^ 2 <
        (value c + value (FP.epsilon : FP L P)) ^ 2 + 2 * value (FP.epsilon : FP L P)) := by
  rw [C52_epsilon.1]
  constructor <;> intro h
  · obtain ⟨p, k1, h⟩ := bind_ok_of h
    obtain ⟨q, k2, h⟩ := bind_ok_of h
    obtain ⟨s, k3, k4⟩ := bind_ok_of h
    have e1 := ((rmul_floor_ceil hv a a p).2 k1).1
    have e2 := ((rmul_floor_ceil hv b b q).2 k2).1
    have e3 := C01_cadd_ok _ _ _ k3
    obtain ⟨c0, c1⟩ := (rsqrt_squares hv s c).2 k4
    have hsq : value a ^ 2 + value b ^ 2 ≤ value c ^ 2 := by nlinarith
    refine ⟨?_, ?_, hsq⟩
    · exact abs_le_of_sq_le_sq (by nlinarith [sq_nonneg (value b)]) c0
    · exact abs_le_of_sq_le_sq (by nlinarith [sq_nonneg (value a)]) c0
  · obtain ⟨p, k1, h⟩ := bind_ok_of h
    obtain ⟨q, k2, h⟩ := bind_ok_of h
    obtain ⟨s, k3, k4⟩ := bind_ok_of h
    have e1 := (rmul_floor_ceil hv a a p).1 k1
    have e2 := (rmul_floor_ceil hv b b q).1 k2
    have e3 := C01_cadd_ok _ _ _ k3
    obtain ⟨c0, c1, c2⟩ := (rsqrt_squares hv s c).1 k4
    have hsq : value c ^ 2 ≤ value a ^ 2 + value b ^ 2 := by nlinarith [e1.1, e2.1]
    refine ⟨c0, ?_, hsq, by nlinarith [e1.2, e2.2]⟩
    refine abs_le_of_sq_le_sq' ?_ ?_ |>.2
    · have h1 := abs_nonneg (value a)
      have h2 := abs_nonneg (value b)
      have h3 := sq_abs (value a)
      have h4 := sq_abs (value b)
      nlinarith [mul_nonneg h1 h2]
    · positivity

example := (C90_hypot (cfg := ⟨true, true, true, true⟩) (by decide) (⟨10000⟩ : FP .i64 4) ⟨10000⟩
  ⟨14143⟩).1 (by decide +kernel)

/-- Outside C90: rounded down, the mean of a small number with itself is below the number. -/
theorem C90_outside_domain :
    geoMean ⟨true, true, true, true⟩ (⟨12⟩ : FP .i64 4) ⟨12⟩ .floor = .ok ⟨0⟩ := by decide +kernel

example : geoMean ⟨true, true, true, true⟩ (⟨20000⟩ : FP .i64 4) ⟨80000⟩ .floor = .ok ⟨40000⟩ ∧
    hypot ⟨true, true, true, true⟩ (⟨30000⟩ : FP .i64 4) ⟨-40000⟩ .floor = .ok ⟨50000⟩ ∧
    hypot ⟨true, true, true, true⟩ (⟨10000⟩ : FP .i64 4) ⟨10000⟩ .ceil = .ok ⟨14143⟩ ∧
    Valid ⟨true, true, true, true⟩ .i64 4 := by decide +kernel

end Fixnum
