import Verif.Props.Programs
import Verif.Props.Algebra

/-!
# Properties C85, C86, C87: client programs

C85: bisection with `half_sum`.  C86: averages and interpolation stay within their bounds.
C87: repeated multiplication by a rate.
-/

namespace Fixnum

open Res Spec

variable {L : Layout} {P : Nat} {ε : Type}

/-! ## C85 -/

/-- A client of the crate: bisection.  `p` holds at `lo` and fails at `hi`; the search ends when the
midpoint is `lo`.  At most `fuel` midpoints are computed. -/
def bisect (cfg : Cfg) (mode : RoundMode) (p : FP L P → Bool) :
    Nat → FP L P → FP L P → Res ε (FP L P)
  | 0, _, _ => .fault .diverge
  | fuel + 1, lo, hi => do
    let mid ← FP.halfSum cfg lo hi mode
    if FP.beq mid lo then .ok lo
    else if p mid then bisect cfg mode p fuel mid hi
    else bisect cfg mode p fuel lo mid

/-- The raw midpoint. -/
theorem half_floor_raw (cfg : Cfg) (a b : FP L P) :
    ∃ r, (FP.halfSum cfg a b .floor : Res ε (FP L P)) = .ok r ∧
      r.inner.toInt = (a.inner.toInt + b.inner.toInt) / 2 := by
  obtain ⟨r, h1, h2⟩ := C16_half_sum_directed (ε := ε) cfg a b .floor (by decide)
  refine ⟨r, h1, ?_⟩
  have hp := ten_pow_ne P
  unfold roundTo value at h2
  rw [div_left_inj' hp] at h2
  have e : ((a.inner.toInt : ℚ) / 10 ^ P + b.inner.toInt / 10 ^ P) / 2 * 10 ^ P =
      ((a.inner.toInt + b.inner.toInt : Int) : ℚ) / ((2 : Int) : ℚ) := by
    push_cast; field_simp
  rw [e] at h2
  have h3 : r.inner.toInt = Spec.round .floor
      (((a.inner.toInt + b.inner.toInt : Int) : ℚ) / ((2 : Int) : ℚ)) := by exact_mod_cast h2
  rw [h3]
  exact Rat.floor_intCast_div_natCast _ 2

theorem bisect_spec (cfg : Cfg) (p : FP L P → Bool) (fuel : Nat) :
    ∀ lo hi : FP L P, lo.inner.toInt < hi.inner.toInt →
      hi.inner.toInt - lo.inner.toInt ≤ 2 ^ fuel → p lo = true → p hi = false →
      ∃ x y, (bisect cfg .floor p (fuel + 1) lo hi : Res ε (FP L P)) = .ok x ∧
        y.inner.toInt = x.inner.toInt + 1 ∧ p x = true ∧ p y = false ∧
        lo.inner.toInt ≤ x.inner.toInt ∧ y.inner.toInt ≤ hi.inner.toInt := by
  induction fuel with
  | zero =>
    intro lo hi h1 h2 h3 h4
    obtain ⟨m, e1, e2⟩ := half_floor_raw (ε := ε) cfg lo hi
    have e : hi.inner.toInt = lo.inner.toInt + 1 := by norm_num at h2; omega
    have hm : m = lo := by
      have : m.inner = lo.inner := toInt_inj' (by omega)
      cases m; cases lo; simp_all
    refine ⟨lo, hi, ?_, e, h3, h4, le_refl _, le_refl _⟩
    unfold bisect
    rw [e1, ok_bind, hm]
    simp [FP.beq]
  | succ fuel ih =>
    intro lo hi h1 h2 h3 h4
    obtain ⟨m, e1, e2⟩ := half_floor_raw (ε := ε) cfg lo hi
    rw [pow_succ] at h2
    unfold bisect
    rw [e1, ok_bind]
    by_cases hm : m.inner = lo.inner
    · have e : hi.inner.toInt = lo.inner.toInt + 1 := by rw [hm] at e2; omega
      refine ⟨lo, hi, ?_, e, h3, h4, le_refl _, le_refl _⟩
      simp [FP.beq, hm]
    · have hlt : lo.inner.toInt < m.inner.toInt := by
        rcases lt_or_eq_of_le (show lo.inner.toInt ≤ m.inner.toInt by omega) with h | h
        · exact h
        · exact absurd (toInt_inj' h.symm) hm
      simp only [FP.beq, hm, decide_false, Bool.false_eq_true, if_false]
      by_cases hp : p m = true
      · rw [if_pos hp]
        obtain ⟨x, y, k1, k2, k3, k4, k5, k6⟩ := ih m hi (by omega) (by omega) hp h4
        exact ⟨x, y, k1, k2, k3, k4, by omega, k6⟩
      · rw [if_neg hp]
        obtain ⟨x, y, k1, k2, k3, k4, k5, k6⟩ :=
          ih lo m hlt (by omega) h3 (by simpa using hp)
        exact ⟨x, y, k1, k2, k3, k4, k5, by omega⟩

theorem value_lt_iff (a b : FP L P) : value a < value b ↔ a.inner.toInt < b.inner.toInt := by
  unfold value
  rw [div_lt_div_iff_of_pos_right (ten_pow_pos P)]
  exact_mod_cast Iff.rfl

theorem value_le_iff (a b : FP L P) : value a ≤ value b ↔ a.inner.toInt ≤ b.inner.toInt := by
  unfold value
  rw [div_le_div_iff_of_pos_right (ten_pow_pos P)]
  exact_mod_cast Iff.rfl

/-- C85: bisection with `Floor` finds, within one midpoint per bit of the layout and one more, two
neighbouring numbers between which the predicate changes; for every predicate and every interval,
`[MIN, MAX]` included, in every build. -/
theorem C85_bisection (cfg : Cfg) (p : FP L P → Bool) (lo hi : FP L P) (h : value lo < value hi)
    (h1 : p lo = true) (h2 : p hi = false) :
    ∃ x y, (bisect cfg .floor p (L.bits + 1) lo hi : Res ε (FP L P)) = .ok x ∧
      value y = value x + 1 / 10 ^ P ∧ p x = true ∧ p y = false ∧
      value lo ≤ value x ∧ value y ≤ value hi := by
  have hb : hi.inner.toInt - lo.inner.toInt ≤ 2 ^ L.bits := by
    have f1 := (fits_half L _).1 (toInt_fits lo.inner)
    have f2 := (fits_half L _).1 (toInt_fits hi.inner)
    have : (2 : Int) ^ L.bits = 2 * half L := by cases L <;> rfl
    omega
  obtain ⟨x, y, k1, k2, k3, k4, k5, k6⟩ :=
    bisect_spec (ε := ε) cfg p L.bits lo hi ((value_lt_iff _ _).1 h) hb h1 h2
  refine ⟨x, y, k1, ?_, k3, k4, (value_le_iff _ _).2 k5, (value_le_iff _ _).2 k6⟩
  unfold value
  rw [k2]; push_cast; ring

example := C85_bisection (ε := Unit) debugCfg (fun x : FP .i64 9 => decide (x.inner.toInt ≤ 123))
  FP.min FP.max (by decide +kernel) (by decide +kernel) (by decide +kernel)

/-- C85: if the predicate is downward closed, the number found is the largest one satisfying it. -/
theorem C85_largest (cfg : Cfg) (p : FP L P → Bool) (lo hi : FP L P)
    (hp : ∀ a b : FP L P, value a ≤ value b → p b = true → p a = true)
    (h1 : p lo = true) (h2 : p hi = false) :
    ∃ x, (bisect cfg .floor p (L.bits + 1) lo hi : Res ε (FP L P)) = .ok x ∧
      ∀ z, p z = true ↔ value z ≤ value x := by
  have h : value lo < value hi := by
    by_contra hc
    rw [hp hi lo (not_lt.1 hc) h1] at h2
    cases h2
  obtain ⟨x, y, k1, k2, k3, k4, -, -⟩ := C85_bisection (ε := ε) cfg p lo hi h h1 h2
  refine ⟨x, k1, fun z => ⟨fun hz => ?_, fun hz => hp z x hz k3⟩⟩
  by_contra hc
  have hy : value y ≤ value z := by
    have hlt := (value_lt_iff _ _).1 (not_le.1 hc)
    rw [value_le_iff]
    have : y.inner.toInt = x.inner.toInt + 1 := by
      have hne := ten_pow_ne P
      unfold value at k2
      rw [← add_div, div_left_inj' hne] at k2
      exact_mod_cast k2
    omega
  rw [hp y z hy hz] at k4
  cases k4

example := C85_largest (ε := Unit) debugCfg (fun x : FP .i64 9 => decide (x.inner.toInt ≤ 123))
  FP.min FP.max (fun a b h hb => by
    rw [value_le_iff] at h
    rw [decide_eq_true_eq] at hb ⊢
    omega) (by decide +kernel) (by decide +kernel)

/-- C85: with `Nearest` the same program does not terminate on `[0, EPSILON]`, however long it runs:
the midpoint is the upper bound. -/
theorem C85_nearest_outside_domain (cfg : Cfg) (fuel : Nat) :
    (bisect cfg .nearest (fun x => FP.beq x FP.zero) fuel (FP.zero : FP .i64 9) FP.epsilon :
      Res ε (FP .i64 9)) = .fault .diverge := by
  have h : (FP.halfSum cfg (FP.zero : FP .i64 9) FP.epsilon .nearest : Res ε (FP .i64 9)) =
      .ok FP.epsilon := by
    obtain ⟨o, d, s, i⟩ := cfg
    cases o <;> rfl
  induction fuel with
  | zero => rfl
  | succ n ih =>
    unfold bisect
    rw [h, ok_bind]
    exact ih

example : value (FP.min : FP .i64 9) < value (FP.max : FP .i64 9) := by
  rw [value_lt_iff]; decide
example : (bisect ⟨true, true, true, true⟩ .floor
    (fun x => decide (FP.rmul ⟨true, true, true, true⟩ x x .floor = .err .overflow) == false)
    65 (⟨0⟩ : FP .i64 9) FP.max : Res Unit _) = .ok ⟨96038388349944⟩ := by
  decide +kernel

/-! ## C86 -/

/-- A client of the crate: the sum of a list, checked. -/
def total : List (FP L P) → Res ArithErr (FP L P)
  | [] => .ok FP.zero
  | x :: xs => do
    let s ← total xs
    FP.cadd s x

/-- The arithmetic mean of a list, rounded; `n` is the number of elements. -/
def mean (cfg : Cfg) (xs : List (FP L P)) (n : BitVec L.bits) (mode : RoundMode) :
    Res ArithErr (FP L P) := do
  let s ← total xs
  FP.rdivInt cfg s n mode

/-- `a + (b - a)·t`. -/
def lerp (cfg : Cfg) (a b t : FP L P) (mode : RoundMode) : Res ArithErr (FP L P) := do
  let d ← FP.csub b a
  let m ← FP.rmul cfg d t mode
  FP.cadd a m

theorem total_value (xs : List (FP L P)) : ∀ s, total xs = .ok s →
    value s = (xs.map value).sum := by
  induction xs with
  | nil => intro s h; cases h; exact C52_zero
  | cons x xs ih =>
    intro s h
    obtain ⟨u, h1, h2⟩ := bind_ok_of h
    rw [C01_cadd_ok _ _ _ h2, ih u h1, List.map_cons, List.sum_cons, add_comm]

theorem sum_bounds (xs : List (FP L P)) (lo hi : ℚ) (h : ∀ x ∈ xs, lo ≤ value x ∧ value x ≤ hi) :
    xs.length * lo ≤ (xs.map value).sum ∧ (xs.map value).sum ≤ xs.length * hi := by
  induction xs with
  | nil => simp
  | cons x xs ih =>
    obtain ⟨h1, h2⟩ := ih fun y hy => h y (List.mem_cons_of_mem _ hy)
    obtain ⟨h3, h4⟩ := h x List.mem_cons_self
    rw [List.map_cons, List.sum_cons, List.length_cons]
    push_cast
    constructor <;> linarith

theorem roundTo_within (m : RoundMode) (a b : FP L P) {q : ℚ} (h1 : value a ≤ q)
    (h2 : q ≤ value b) : value a ≤ roundTo P m q ∧ roundTo P m q ≤ value b := by
  rw [← roundTo_value m a, ← roundTo_value m b]
  exact ⟨roundTo_mono P m h1, roundTo_mono P m h2⟩

theorem representable_within (m : RoundMode) (a b : FP L P) {q : ℚ} (h1 : value a ≤ q)
    (h2 : q ≤ value b) : Representable L P (roundTo P m q) := by
  obtain ⟨k1, k2⟩ := roundTo_within m a b h1 h2
  have hp := ten_pow_pos P
  have fa := toInt_fits a.inner
  have fb := toInt_fits b.inner
  unfold roundTo value at k1 k2
  rw [div_le_div_iff_of_pos_right hp] at k1 k2
  unfold roundTo
  rw [representable_iff]
  have k1 : a.inner.toInt ≤ Spec.round m (q * 10 ^ P) := by exact_mod_cast k1
  have k2 : Spec.round m (q * 10 ^ P) ≤ b.inner.toInt := by exact_mod_cast k2
  exact ⟨le_trans fa.1 k1, le_trans k2 fb.2⟩

/-- C86: a mean lies between the smallest and the largest element, in every mode and build, and is
within one unit of the exact mean. -/
theorem C86_mean (cfg : Cfg) (xs : List (FP L P)) (n : BitVec L.bits) (mode : RoundMode)
    (r : FP L P) (hn : n.toInt = xs.length) (h : mean cfg xs n mode = .ok r) :
    (∀ a b : FP L P, (∀ x ∈ xs, value a ≤ value x ∧ value x ≤ value b) →
      value a ≤ value r ∧ value r ≤ value b) ∧
    |value r - (xs.map value).sum / xs.length| < 1 / 10 ^ P := by
  obtain ⟨s, h1, h2⟩ := bind_ok_of h
  obtain ⟨hn0, m, hm⟩ := rdivInt_some h2
  rw [total_value xs s h1, hn] at hm
  have hl : (0 : ℚ) < xs.length := by
    have : (0 : Int) < xs.length := by omega
    exact_mod_cast this
  have hc : ((xs.length : Int) : ℚ) = xs.length := by norm_cast
  rw [hc] at hm
  refine ⟨fun a b hab => ?_, ?_⟩
  · obtain ⟨k1, k2⟩ := sum_bounds xs _ _ hab
    rw [hm]
    apply roundTo_within
    · rw [le_div_iff₀ hl, mul_comm]; exact k1
    · rw [div_le_iff₀ hl, mul_comm]; exact k2
  · rw [hm]; exact roundTo_error P m _

example := C86_mean debugCfg [⟨1⟩, ⟨2⟩, ⟨5⟩, (⟨-7⟩ : FP .i64 9)] 4 .ceil ⟨1⟩ (by decide) (by decide +kernel)

/-- C86: a mean of equal numbers is that number. -/
theorem C86_mean_equal (cfg : Cfg) (xs : List (FP L P)) (n : BitVec L.bits) (mode : RoundMode)
    (r x : FP L P) (hn : n.toInt = xs.length) (hx : ∀ y ∈ xs, y = x)
    (h : mean cfg xs n mode = .ok r) : r = x := by
  have := (C86_mean cfg xs n mode r hn h).1 x x fun y hy => by rw [hx y hy]; exact ⟨le_refl _, le_refl _⟩
  exact value_inj (le_antisymm this.2 this.1)

example := C86_mean_equal debugCfg [⟨7⟩, ⟨7⟩, (⟨7⟩ : FP .i64 9)] 3 .nearest ⟨7⟩ ⟨7⟩ (by decide)
  (by decide +kernel) (by decide +kernel)

theorem rdivInt_exact (cfg : Cfg) (a : FP L P) (n : BitVec L.bits) (mode : RoundMode) (h0 : 0 < n.toInt)
    (hm : mode = .nearest → 2 * n.toInt ≤ rawMax L) :
    ExactOr ArithErr.overflow (FP.rdivInt cfg a n mode) (roundTo P mode (value a / (n.toInt : ℚ))) := by
  by_cases h : mode = .nearest
  · exact C12_rdivInt_small_partial cfg a n mode (by omega) (by omega)
      (by rw [abs_of_pos h0]; exact hm h)
  · exact C12_rdivInt_partial cfg a n mode (by omega) (by omega) fun e => absurd e h

/-- C86: the mean exists whenever the sum does; for `Nearest` of at most `MAX / 2` raw units many numbers. -/
theorem C86_mean_exists (cfg : Cfg) (xs : List (FP L P)) (s : FP L P) (n : BitVec L.bits)
    (mode : RoundMode) (hm : mode = .nearest → 2 * (xs.length : Int) ≤ rawMax L)
    (hn : n.toInt = xs.length) (hx : xs ≠ []) (hs : total xs = .ok s) : ∃ r, mean cfg xs n mode = .ok r := by
  have hl : 0 < xs.length := List.length_pos_iff.2 hx
  have h0 : 0 < n.toInt := by omega
  have hq : (1 : ℚ) ≤ (n.toInt : ℚ) := by exact_mod_cast h0
  have hE := rdivInt_exact cfg s n mode h0 fun e => by rw [hn]; exact hm e
  have hrep : Representable L P (roundTo P mode (value s / (n.toInt : ℚ))) := by
    have hz : value (FP.zero : FP L P) = 0 := C52_zero
    rcases le_total 0 (value s) with h | h
    · apply representable_within mode FP.zero s
      · rw [hz]; positivity
      · exact div_le_self h hq
    · apply representable_within mode s FP.zero
      · rw [le_div_iff₀ (by linarith)]; nlinarith
      · rw [hz]; exact div_nonpos_of_nonpos_of_nonneg h (by linarith)
  obtain ⟨c, hc, -⟩ := hE.1 hrep
  exact ⟨c, by unfold mean; rw [hs, ok_bind, hc]⟩

example := C86_mean_exists debugCfg [⟨1⟩, ⟨2⟩, ⟨5⟩, (⟨-7⟩ : FP .i64 9)] ⟨1⟩ 4 .nearest (by decide)
  (by decide) (by decide) (by decide +kernel)

/-- C86: interpolation with a factor in `[0, 1]` stays between the two ends, in every mode and
build. -/
theorem C86_lerp {cfg : Cfg} (hv : Valid cfg L P) (a b t r : FP L P) (mode : RoundMode)
    (h0 : 0 ≤ value t) (h1 : value t ≤ 1) (h : lerp cfg a b t mode = .ok r) :
    min (value a) (value b) ≤ value r ∧ value r ≤ max (value a) (value b) ∧
    |value r - (value a + (value b - value a) * value t)| < 1 / 10 ^ P := by
  obtain ⟨d, k1, k2⟩ := bind_ok_of h
  obtain ⟨m, k3, k4⟩ := bind_ok_of k2
  obtain ⟨mo, k5⟩ := rmul_some hv k3
  have e1 := C02_csub_ok _ _ _ k1
  have e2 := C01_cadd_ok _ _ _ k4
  have hz : value (FP.zero : FP L P) = 0 := C52_zero
  have herr := roundTo_error P mo (value d * value t)
  have hm : (0 ≤ value d → 0 ≤ value m ∧ value m ≤ value d) ∧
      (value d ≤ 0 → value d ≤ value m ∧ value m ≤ 0) := by
    constructor
    · intro hd
      have := roundTo_within mo FP.zero d (q := value d * value t)
        (by rw [hz]; positivity) (by nlinarith)
      rw [hz, ← k5] at this; exact this
    · intro hd
      have := roundTo_within mo d FP.zero (q := value d * value t)
        (by nlinarith) (by rw [hz]; nlinarith)
      rw [hz, ← k5] at this; exact this
  refine ⟨?_, ?_, ?_⟩
  · rw [e2]
    rcases le_total 0 (value d) with hd | hd
    · exact min_le_of_left_le (by linarith [(hm.1 hd).1])
    · exact min_le_of_right_le (by linarith [(hm.2 hd).1])
  · rw [e2]
    rcases le_total 0 (value d) with hd | hd
    · exact le_max_of_le_right (by linarith [(hm.1 hd).2])
    · exact le_max_of_le_left (by linarith [(hm.2 hd).2])
  · rw [e2, k5, ← e1]
    have : value a + roundTo P mo (value d * value t) - (value a + value d * value t) =
        roundTo P mo (value d * value t) - value d * value t := by ring
    rw [this]; exact herr

example := C86_lerp (cfg := debugCfg) (by decide) (⟨-5⟩ : FP .i64 9) ⟨20⟩ ⟨500000000⟩ ⟨8⟩ .ceil
  (by decide +kernel) (by decide +kernel) (by decide +kernel)

/-- C86: interpolation hits both ends exactly. -/
theorem C86_lerp_ends {cfg : Cfg} (hv : Valid cfg L P) (a b t r : FP L P) (mode : RoundMode)
    (h : lerp cfg a b t mode = .ok r) : (value t = 0 → r = a) ∧ (value t = 1 → r = b) := by
  obtain ⟨d, k1, k2⟩ := bind_ok_of h
  obtain ⟨m, k3, k4⟩ := bind_ok_of k2
  obtain ⟨mo, k5⟩ := rmul_some hv k3
  have e1 := C02_csub_ok _ _ _ k1
  have e2 := C01_cadd_ok _ _ _ k4
  have hz : value (FP.zero : FP L P) = 0 := C52_zero
  constructor
  · intro ht
    apply value_inj
    rw [ht, mul_zero, ← hz, roundTo_value, hz] at k5
    rw [e2, k5, add_zero]
  · intro ht
    apply value_inj
    rw [ht, mul_one, roundTo_value] at k5
    rw [e2, k5, e1]; ring

example := C86_lerp_ends (cfg := debugCfg) (by decide) (⟨-5⟩ : FP .i64 9) ⟨20⟩ ⟨1000000000⟩ ⟨20⟩ .ceil
  (by decide +kernel)

/-- C86: interpolation succeeds whenever the distance is representable, but for `Nearest` on
`FixedPoint<i128, U38>`. -/
theorem C86_lerp_exists {cfg : Cfg} (hv : Valid cfg L P) (a b t d : FP L P) (mode : RoundMode)
    (hm : mode = .nearest → ¬ (L = .i128 ∧ P = 38)) (h0 : 0 ≤ value t) (h1 : value t ≤ 1)
    (hd : FP.csub b a = .ok d) :
    ∃ r, lerp cfg a b t mode = .ok r := by
  have e1 := C02_csub_ok _ _ _ hd
  have hz : value (FP.zero : FP L P) = 0 := C52_zero
  have hE := C07_rmul_partial hv d t mode hm
  have hrep : Representable L P (roundTo P mode (value d * value t)) := by
    rcases le_total 0 (value d) with h | h
    · exact representable_within mode FP.zero d (by rw [hz]; positivity) (by nlinarith)
    · exact representable_within mode d FP.zero (by nlinarith) (by rw [hz]; nlinarith)
  obtain ⟨m, k1, k2⟩ := hE.1 hrep
  have hsum : ∃ c : FP L P, value c = value a + value m := by
    have hp := ten_pow_pos P
    have hb : (value a ≤ value a + value m ∧ value a + value m ≤ value b) ∨
        (value b ≤ value a + value m ∧ value a + value m ≤ value a) := by
      rcases le_total 0 (value d) with h | h
      · left
        have := roundTo_within mode FP.zero d (q := value d * value t)
          (by rw [hz]; positivity) (by nlinarith)
        rw [hz, ← k2] at this
        constructor <;> linarith [this.1, this.2]
      · right
        have := roundTo_within mode d FP.zero (q := value d * value t)
          (by nlinarith) (by rw [hz]; nlinarith)
        rw [hz, ← k2] at this
        constructor <;> linarith [this.1, this.2]
    have e : value a + value m = ((a.inner.toInt + m.inner.toInt : Int) : ℚ) / 10 ^ P := by
      unfold value; push_cast; ring
    have hr : roundTo P mode (value a + value m) = value a + value m := by
      unfold roundTo
      rw [e, div_mul_cancel₀ _ hp.ne', round_int]
    rw [← hr]
    rcases hb with hb | hb
    · exact representable_within mode a b hb.1 hb.2
    · exact representable_within mode b a hb.1 hb.2
  obtain ⟨c, hc, -⟩ := (C01_cadd_exact a m).1 hsum
  exact ⟨c, by unfold lerp; rw [hd, ok_bind, k1, ok_bind, hc]⟩

example := C86_lerp_exists (cfg := debugCfg) (by decide) (⟨-5⟩ : FP .i64 9) ⟨20⟩ ⟨500000000⟩ ⟨25⟩ .nearest
  (by decide) (by decide +kernel) (by decide +kernel) (by decide +kernel)

/-- C86: interpolation is monotone in the factor, if both calls round in the same mode. -/
theorem C86_lerp_mono {cfg : Cfg} (hv : Valid cfg L P) (a b t t' r r' : FP L P) (mode : RoundMode)
    (hm : mode = .nearest → ¬ (L = .i128 ∧ P = 38)) (ht : value t ≤ value t')
    (h : lerp cfg a b t mode = .ok r) (h' : lerp cfg a b t' mode = .ok r') :
    (value a ≤ value b → value r ≤ value r') ∧ (value b ≤ value a → value r' ≤ value r) := by
  obtain ⟨d, k1, k2⟩ := bind_ok_of h
  obtain ⟨m, k3, k4⟩ := bind_ok_of k2
  obtain ⟨d', k1', k2'⟩ := bind_ok_of h'
  obtain ⟨m', k3', k4'⟩ := bind_ok_of k2'
  rw [k1] at k1'
  cases k1'
  have e1 := C02_csub_ok _ _ _ k1
  rw [C01_cadd_ok _ _ _ k4, C01_cadd_ok _ _ _ k4',
    ((C07_rmul_partial hv d t mode hm).ok_iff m).1 k3,
    ((C07_rmul_partial hv d t' mode hm).ok_iff m').1 k3']
  refine ⟨fun hab => ?_, fun hab => ?_⟩
  · have := roundTo_mono P mode
      (show value d * value t ≤ value d * value t' from
        mul_le_mul_of_nonneg_left ht (by rw [e1]; linarith))
    linarith
  · have := roundTo_mono P mode
      (show value d * value t' ≤ value d * value t from
        mul_le_mul_of_nonpos_left ht (by rw [e1]; linarith))
    linarith

example := (C86_lerp_mono (cfg := debugCfg) (by decide) (⟨-5⟩ : FP .i64 9) ⟨20⟩ ⟨300000000⟩
  ⟨500000000⟩ ⟨3⟩ ⟨8⟩ .ceil (by decide) (by decide +kernel) (by decide +kernel)
  (by decide +kernel)).1 (by decide +kernel)
example := (C86_lerp_mono (cfg := debugCfg) (by decide) (⟨20⟩ : FP .i64 9) ⟨-5⟩ ⟨300000000⟩
  ⟨500000000⟩ ⟨12⟩ ⟨7⟩ .nearest (by decide) (by decide +kernel) (by decide +kernel)
  (by decide +kernel)).2 (by decide +kernel)

/-- C86: the distance of the ends must be representable: from `MIN` to `MAX` there is no
interpolation, though the result would exist. -/
theorem C86_lerp_outside_domain :
    lerp ⟨true, true, true, true⟩ (FP.min : FP .i64 9) FP.max ⟨500000000⟩ .floor =
      .err .overflow := by decide +kernel

example : mean ⟨true, true, true, true⟩ [⟨1⟩, ⟨2⟩, ⟨5⟩, (⟨-7⟩ : FP .i64 9)] 4 .nearest = .ok ⟨0⟩ ∧
    (4 : BitVec Layout.i64.bits).toInt = [1, 2, 5, -7].length := by decide +kernel
example : lerp ⟨true, true, true, true⟩ (⟨-5⟩ : FP .i64 9) ⟨20⟩ ⟨500000000⟩ .ceil = .ok ⟨8⟩ ∧
    Valid ⟨true, true, true, true⟩ .i64 9 := by decide +kernel

/-! ## C87 -/

/-- A client of the crate: the repeated multiplication by a rate, `n` times. -/
def decay (cfg : Cfg) (mode : RoundMode) (r : FP L P) : Nat → FP L P → Res ArithErr (FP L P)
  | 0, x => .ok x
  | n + 1, x => do
    let y ← FP.rmul cfg x r mode
    decay cfg mode r n y

/-- A conversion at a rate: multiply by it, or divide by it. -/
inductive Conv (L : Layout) (P : Nat) where
  | mul (r : FP L P)
  | div (r : FP L P)

/-- A client of the crate: conversions one after the other. -/
def convert (cfg : Cfg) (mode : RoundMode) : List (Conv L P) → FP L P → Res ArithErr (FP L P)
  | [], x => .ok x
  | .mul r :: cs, x => do
    let y ← FP.rmul cfg x r mode
    convert cfg mode cs y
  | .div r :: cs, x => do
    let y ← FP.rdiv cfg x r mode
    convert cfg mode cs y

/-- The exact factor of a conversion. -/
def Conv.factor : Conv L P → ℚ
  | .mul r => value r
  | .div r => 1 / value r

/-- The exact factor of a chain. -/
def factors (cs : List (Conv L P)) : ℚ := (cs.map Conv.factor).prod

theorem factors_cons (c : Conv L P) (cs : List (Conv L P)) :
    factors (c :: cs) = c.factor * factors cs := by
  unfold factors; rw [List.map_cons, List.prod_cons]

theorem factors_pos (cs : List (Conv L P)) (h : ∀ c ∈ cs, 0 < c.factor) : 0 < factors cs := by
  induction cs with
  | nil => simp [factors]
  | cons c cs ih =>
    rw [factors_cons]
    exact mul_pos (h c List.mem_cons_self) (ih fun d hd => h d (List.mem_cons_of_mem _ hd))

theorem convert_cons {cfg : Cfg} (hv : Valid cfg L P) {mode : RoundMode} {c : Conv L P}
    {cs : List (Conv L P)} {x r : FP L P} (h : convert cfg mode (c :: cs) x = .ok r) :
    ∃ (y : FP L P) (m : RoundMode), (mode ≠ .nearest → m = mode) ∧
      value y = roundTo P m (value x * c.factor) ∧ convert cfg mode cs y = .ok r := by
  cases c with
  | mul q =>
    obtain ⟨y, h1, h2⟩ := bind_ok_of h
    by_cases hm : mode = .nearest
    · obtain ⟨m, e⟩ := rmul_some hv h1
      exact ⟨y, m, fun h => absurd hm h, e, h2⟩
    · exact ⟨y, mode, fun _ => rfl,
        ((C07_rmul_partial hv x q mode fun e => absurd e hm).ok_iff y).1 h1, h2⟩
  | div q =>
    obtain ⟨y, h1, h2⟩ := bind_ok_of h
    have e : value x * (Conv.div q).factor = value x / value q := by
      unfold Conv.factor; rw [mul_one_div]
    rw [e]
    by_cases hm : mode = .nearest
    · obtain ⟨m, e⟩ := rdiv_some hv h1
      exact ⟨y, m, fun h => absurd hm h, e, h2⟩
    · exact ⟨y, mode, fun _ => rfl,
        ((C10_rdiv_directed hv x q mode hm (rdiv_ok_ne_zero hv h1)).ok_iff y).1 h1, h2⟩

/-- C87: a chain of conversions rounded down never yields more than the exact product, a chain
rounded up never less. -/
theorem C87_chain {cfg : Cfg} (hv : Valid cfg L P) (cs : List (Conv L P))
    (hc : ∀ c ∈ cs, 0 < c.factor) (x r : FP L P) :
    (convert cfg .floor cs x = .ok r → value r ≤ value x * factors cs) ∧
    (convert cfg .ceil cs x = .ok r → value x * factors cs ≤ value r) := by
  induction cs generalizing x with
  | nil =>
    constructor <;> intro h <;> injection h with h <;> subst h <;> simp [factors]
  | cons c cs ih =>
    have hcs : ∀ d ∈ cs, 0 < d.factor := fun d hd => hc d (List.mem_cons_of_mem _ hd)
    have hpos := factors_pos cs hcs
    rw [factors_cons, ← mul_assoc]
    constructor <;> intro h
    · obtain ⟨y, m, hm, e, k⟩ := convert_cons hv h
      rw [hm (by decide)] at e
      refine le_trans ((ih hcs y).1 k) ?_
      rw [e]
      exact mul_le_mul_of_nonneg_right (roundTo_floor_spec P _).1 hpos.le
    · obtain ⟨y, m, hm, e, k⟩ := convert_cons hv h
      rw [hm (by decide)] at e
      refine le_trans ?_ ((ih hcs y).2 k)
      rw [e]
      exact mul_le_mul_of_nonneg_right (roundTo_ceil_spec P _).1 hpos.le

example := (C87_chain (cfg := debugCfg) (by decide) [.mul (⟨30⟩ : FP .i64 2), .div ⟨30⟩]
  (by decide +kernel) ⟨5⟩ ⟨3⟩).1 (by decide +kernel)

/-- C87: with rates of product at most one, no amount grows by going round in a circle with `Floor`;
with rates of product at least one, none shrinks with `Ceil`. -/
theorem C87_circle {cfg : Cfg} (hv : Valid cfg L P) (cs : List (Conv L P))
    (hc : ∀ c ∈ cs, 0 < c.factor) (x r : FP L P) (hx : 0 ≤ value x) :
    (factors cs ≤ 1 → convert cfg .floor cs x = .ok r → value r ≤ value x) ∧
    (1 ≤ factors cs → convert cfg .ceil cs x = .ok r → value x ≤ value r) := by
  obtain ⟨h1, h2⟩ := C87_chain hv cs hc x r
  exact ⟨fun h k => le_trans (h1 k) (mul_le_of_le_one_right hx h),
    fun h k => le_trans (le_mul_of_one_le_right hx h) (h2 k)⟩

example := (C87_circle (cfg := debugCfg) (by decide) [.mul (⟨30⟩ : FP .i64 2), .div ⟨30⟩]
  (by decide +kernel) ⟨5⟩ ⟨3⟩ (by decide +kernel)).1 (by decide +kernel) (by decide +kernel)

/-- C87: with rates of at most one, a chain is less than one unit per conversion away from the exact
product, in every mode and build. -/
theorem C87_chain_error {cfg : Cfg} (hv : Valid cfg L P) (cs : List (Conv L P)) (mode : RoundMode)
    (hc : ∀ c ∈ cs, 0 < c.factor ∧ c.factor ≤ 1) (x r : FP L P)
    (h : convert cfg mode cs x = .ok r) :
    |value r - value x * factors cs| ≤ cs.length * value (FP.epsilon : FP L P) := by
  have hp := ten_pow_pos P
  rw [C52_epsilon.1]
  induction cs generalizing x with
  | nil => injection h with h; subst h; simp [factors]
  | cons c cs ih =>
    have hcs : ∀ d ∈ cs, 0 < d.factor ∧ d.factor ≤ 1 := fun d hd => hc d (List.mem_cons_of_mem _ hd)
    obtain ⟨y, m, -, e, k⟩ := convert_cons hv h
    have k1 := ih hcs y k
    have hpos := factors_pos cs fun d hd => (hcs d hd).1
    have hle : factors cs ≤ 1 := by
      clear h k k1 ih hpos hc
      induction cs with
      | nil => simp [factors]
      | cons d ds ihd =>
        rw [factors_cons]
        have h1 := hcs d List.mem_cons_self
        have h2 := ihd fun d' hd => hcs d' (List.mem_cons_of_mem _ hd)
        have h3 := factors_pos ds fun d' hd => (hcs d' (List.mem_cons_of_mem _ hd)).1
        nlinarith
    have k2 := roundTo_error P m (value x * c.factor)
    rw [← e] at k2
    have k3 : |(value y - value x * c.factor) * factors cs| ≤ 1 / 10 ^ P := by
      rw [abs_mul, abs_of_pos hpos]
      have := abs_nonneg (value y - value x * c.factor)
      nlinarith
    rw [factors_cons]
    have e2 : value r - value x * (c.factor * factors cs) =
        (value r - value y * factors cs) + (value y - value x * c.factor) * factors cs := by ring
    rw [e2, List.length_cons]
    push_cast
    refine le_trans (abs_add_le _ _) ?_
    rw [add_mul, one_mul]
    exact add_le_add k1 k3

example := C87_chain_error (cfg := debugCfg) (by decide) [.mul (⟨30⟩ : FP .i64 2), .div ⟨300⟩] .nearest
  (by decide +kernel) ⟨5⟩ ⟨1⟩ (by decide +kernel)

/-- C87: when a multiplication by a rate in `[0, 1]` leaves a number as it is. -/
theorem C87_fixpoint {cfg : Cfg} (hv : Valid cfg L P) (x r : FP L P) (hx : 0 ≤ value x)
    (hr : value r ≤ 1) :
    (FP.rmul cfg x r .floor = .ok x ↔ value x * (1 - value r) = 0) ∧
    (FP.rmul cfg x r .ceil = .ok x ↔ value x * (1 - value r) < value (FP.epsilon : FP L P)) := by
  have hp := ten_pow_pos P
  have h0 : 0 ≤ value x * (1 - value r) := mul_nonneg hx (by linarith)
  have e : value x * (1 - value r) = value x - value x * value r := by ring
  constructor
  · rw [(C07_rmul_partial hv x r .floor (by simp)).ok_iff x, eq_comm]
    constructor
    · intro h
      have := (roundTo_floor_spec P (value x * value r)).1
      rw [h] at this
      linarith
    · intro h
      have : value x * value r = value x := by linarith
      rw [this, roundTo_value]
  · rw [(C07_rmul_partial hv x r .ceil (by simp)).ok_iff x, eq_comm, C52_epsilon.1]
    constructor
    · intro h
      have := abs_lt.1 (roundTo_error P .ceil (value x * value r))
      rw [h] at this
      linarith [this.2]
    · intro h
      exact roundTo_ceil_of x (by linarith) (by linarith)

example := C87_fixpoint (cfg := debugCfg) (by decide) (⟨7⟩ : FP .i64 2) ⟨90⟩ (by decide +kernel)
  (by decide +kernel)

/-- C87 for `Nearest`: half a unit decides, the tie included (not `i128` with 38 digits, see C07). -/
theorem C87_fixpoint_nearest {cfg : Cfg} (hv : Valid cfg L P) (x r : FP L P)
    (hne : ¬ (L = .i128 ∧ P = 38)) (hx : 0 ≤ value x)
    (hr0 : 0 ≤ value r) (hr : value r ≤ 1) :
    FP.rmul cfg x r .nearest = .ok x ↔
      value x * (1 - value r) ≤ value (FP.epsilon : FP L P) / 2 := by
  have hp := ten_pow_pos P
  have h0 : 0 ≤ value x * (1 - value r) := mul_nonneg hx (by linarith)
  have e : value x * (1 - value r) = value x - value x * value r := by ring
  rw [(C07_rmul_partial hv x r .nearest fun _ => hne).ok_iff x, eq_comm, C52_epsilon.1]
  have hh : (1 : ℚ) / 10 ^ P / 2 = 1 / 2 / 10 ^ P := by ring
  rw [hh]
  constructor
  · intro h
    have := abs_le.1 (roundTo_nearest_error P (value x * value r))
    rw [h] at this
    linarith [this.2]
  · intro h
    rcases lt_or_eq_of_le h with h | h
    · exact roundTo_nearest_of x (by rw [abs_lt]; constructor <;> linarith)
    · obtain ⟨h1, h2⟩ := roundTo_nearest_spec P (value x * value r) x.inner.toInt
      have ev : (x.inner.toInt : ℚ) / 10 ^ P = value x := rfl
      rw [ev] at h1 h2
      have hq : 0 ≤ value x * value r := mul_nonneg hx hr0
      have hn := roundTo_nearest_error P (value x * value r)
      have hb := roundTo_within .nearest FP.zero x (q := value x * value r)
        (by rw [C52_zero]; exact hq) (by nlinarith)
      rw [C52_zero] at hb
      by_contra hne
      have hlt : roundTo P .nearest (value x * value r) < value x := lt_of_le_of_ne hb.2 hne
      have h3 : value x - value x * value r = 1 / 2 / 10 ^ P := by linarith
      have h4 : |value x * value r - value x| = 1 / 2 / 10 ^ P := by
        rw [abs_sub_comm, abs_of_nonneg (by linarith), h3]
      have h5 : |value x * value r - roundTo P .nearest (value x * value r)| ≠
          |value x * value r - value x| := by
        intro h6
        have := h2 h6
        rw [abs_of_nonneg hx, abs_of_nonneg hb.1] at this
        linarith
      have h6 : |value x * value r - roundTo P .nearest (value x * value r)| < 1 / 2 / 10 ^ P := by
        rw [← h4]; exact lt_of_le_of_ne h1 h5
      rw [abs_lt] at h6
      -- a multiple of the unit below `x` is at least one unit below
      have h7 : roundTo P .nearest (value x * value r) ≤ value x - 1 / 10 ^ P := by
        unfold roundTo value at hlt ⊢
        rw [div_lt_div_iff_of_pos_right hp] at hlt
        have hlt : Spec.round .nearest ((x.inner.toInt : ℚ) / 10 ^ P *
            ((r.inner.toInt : ℚ) / 10 ^ P) * 10 ^ P) < x.inner.toInt := by exact_mod_cast hlt
        rw [← sub_div, div_le_div_iff_of_pos_right hp]
        have := Int.le_sub_one_of_lt hlt
        exact_mod_cast this
      have h8 : (1 : ℚ) / 10 ^ P = 1 / 2 / 10 ^ P + 1 / 2 / 10 ^ P := by ring
      linarith [h6.1, h6.2]

example := C87_fixpoint_nearest (cfg := debugCfg) (by decide) (⟨7⟩ : FP .i64 2) ⟨90⟩ (by decide)
  (by decide +kernel) (by decide +kernel) (by decide +kernel)

theorem decay_const {cfg : Cfg} {mode : RoundMode} {r x : FP L P}
    (h : FP.rmul cfg x r mode = .ok x) : ∀ n, decay cfg mode r n x = .ok x
  | 0 => rfl
  | n + 1 => by
    show (FP.rmul cfg x r mode >>= fun y => decay cfg mode r n y) = _
    rw [h, ok_bind]; exact decay_const h n

/-- One multiplication by a rate in `[0, 1]` succeeds and does not increase a non-negative number. -/
theorem rmul_rate {cfg : Cfg} (hv : Valid cfg L P) {mode : RoundMode}
    (hm : mode = .nearest → ¬ (L = .i128 ∧ P = 38)) {x r : FP L P} (hx : 0 ≤ value x) (hr0 : 0 ≤ value r) (hr : value r ≤ 1) :
    ∃ y, FP.rmul cfg x r mode = .ok y ∧ value y = roundTo P mode (value x * value r) ∧
      0 ≤ value y ∧ value y ≤ value x := by
  have hz : value (FP.zero : FP L P) = 0 := C52_zero
  have h1 : value (FP.zero : FP L P) ≤ value x * value r := by rw [hz]; positivity
  have h2 : value x * value r ≤ value x := mul_le_of_le_one_right hx hr
  obtain ⟨y, k1, k2⟩ := (C07_rmul_partial hv x r mode hm).1
    (representable_within mode FP.zero x h1 h2)
  have := roundTo_within mode FP.zero x h1 h2
  rw [hz, ← k2] at this
  exact ⟨y, k1, k2, this⟩

/-- C87: repeated multiplication by a rate in `[0, 1]` never fails, and has come to rest after as
many steps as the number has units. -/
theorem C87_decay {cfg : Cfg} (hv : Valid cfg L P) (mode : RoundMode)
    (hm : mode = .nearest → ¬ (L = .i128 ∧ P = 38))
    (x r : FP L P) (hx : 0 ≤ value x) (hr0 : 0 ≤ value r) (hr : value r ≤ 1) (n : Nat) :
    ∃ y, decay cfg mode r n x = .ok y ∧ 0 ≤ value y ∧ value y ≤ value x ∧
      (value x ≤ n * value (FP.epsilon : FP L P) → FP.rmul cfg y r mode = .ok y) := by
  have hp := ten_pow_pos P
  rw [C52_epsilon.1]
  induction n generalizing x with
  | zero =>
    refine ⟨x, rfl, hx, le_refl _, fun h => ?_⟩
    have h0 : value x = 0 := by
      push_cast at h; linarith
    obtain ⟨y, k1, -, k3, k4⟩ := rmul_rate hv hm hx hr0 hr
    rw [k1, value_inj (le_antisymm k4 (by rw [h0]; exact k3))]
  | succ n ih =>
    obtain ⟨y, k1, -, k3, k4⟩ := rmul_rate hv hm hx hr0 hr
    obtain ⟨z, l1, l2, l3, l4⟩ := ih y k3
    refine ⟨z, ?_, l2, le_trans l3 k4, fun h => ?_⟩
    · show (FP.rmul cfg x r mode >>= fun y => decay cfg mode r n y) = _
      rw [k1, ok_bind]; exact l1
    · rcases eq_or_lt_of_le k4 with e | hlt
      · have e := value_inj e
        subst e
        rw [decay_const k1 n] at l1
        cases l1
        exact k1
      · apply l4
        have h7 : value y ≤ value x - 1 / 10 ^ P := by
          have := (value_lt_iff _ _).1 hlt
          unfold value
          rw [← sub_div, div_le_div_iff_of_pos_right hp]
          have := Int.le_sub_one_of_lt this
          exact_mod_cast this
        push_cast at h
        linarith

example := C87_decay (cfg := debugCfg) (by decide) .nearest (by decide) (⟨20⟩ : FP .i64 2) ⟨90⟩
  (by decide +kernel) (by decide +kernel) (by decide +kernel) 20

/-- C87: with `Floor` and a rate below one every non-negative number is used up after as many steps
as it has units. -/
theorem C87_decay_floor {cfg : Cfg} (hv : Valid cfg L P) (x r : FP L P) (hx : 0 ≤ value x)
    (hr0 : 0 ≤ value r) (hr : value r < 1) (n : Nat)
    (hn : value x ≤ n * value (FP.epsilon : FP L P)) : decay cfg .floor r n x = .ok FP.zero := by
  obtain ⟨y, h1, h2, -, h4⟩ := C87_decay hv .floor (by simp) x r hx hr0 hr.le n
  have h5 := ((C87_fixpoint hv y r h2 hr.le).1).1 (h4 hn)
  have h6 : value y = 0 := by
    rcases mul_eq_zero.1 h5 with h | h
    · exact h
    · linarith
  rw [h1, value_inj (h6.trans (C52_zero (L := L) (P := P)).symm)]

example := C87_decay_floor (cfg := debugCfg) (by decide) (⟨7⟩ : FP .i64 2) ⟨90⟩ (by decide +kernel)
  (by decide +kernel) (by decide +kernel) 7 (by decide +kernel)

/-- C87: with `Ceil` and a positive rate no positive number is ever used up. -/
theorem C87_decay_ceil {cfg : Cfg} (hv : Valid cfg L P) (x r : FP L P) (hx : 0 < value x)
    (hr0 : 0 < value r) (hr : value r ≤ 1) (n : Nat) :
    ∃ y, decay cfg .ceil r n x = .ok y ∧ 0 < value y := by
  induction n generalizing x with
  | zero => exact ⟨x, rfl, hx⟩
  | succ n ih =>
    obtain ⟨y, k1, k2, -, -⟩ := rmul_rate hv (mode := .ceil) (by simp) hx.le hr0.le hr
    have hy : 0 < value y := by
      rw [k2]
      exact lt_of_lt_of_le (mul_pos hx hr0) (roundTo_ceil_spec P _).1
    obtain ⟨z, l1, l2⟩ := ih y hy
    refine ⟨z, ?_, l2⟩
    show (FP.rmul cfg x r .ceil >>= fun y => decay cfg .ceil r n y) = _
    rw [k1, ok_bind]; exact l1

example := C87_decay_ceil (cfg := debugCfg) (by decide) (⟨20⟩ : FP .i64 2) ⟨90⟩ (by decide +kernel)
  (by decide +kernel) (by decide +kernel) 1000

/-- Outside C87: with `Nearest` a circle can gain, and with 38 digits on `i128` the multiplication by
a rate of almost one panics. -/
theorem C87_outside_domain :
    FP.rmul debugCfg (⟨10 ^ 38⟩ : FP .i128 38) ⟨10 ^ 38 - 1⟩ .nearest = .ok ⟨10 ^ 38 - 1⟩ ∧
    FP.rmul debugCfg (⟨1⟩ : FP .i128 38) ⟨10 ^ 38 - 1⟩ .nearest = .panic ∧
    convert debugCfg .nearest [.mul (⟨30⟩ : FP .i64 2), .div ⟨30⟩] ⟨5⟩ = .ok ⟨7⟩ := by
  decide +kernel

example : convert debugCfg .floor [.mul (⟨30⟩ : FP .i64 2), .div ⟨30⟩] ⟨5⟩ = .ok ⟨3⟩ ∧
    convert debugCfg .ceil [.mul (⟨30⟩ : FP .i64 2), .div ⟨30⟩] ⟨5⟩ = .ok ⟨7⟩ := by
  decide +kernel
example : decay debugCfg .floor (⟨90⟩ : FP .i64 2) 7 ⟨7⟩ = .ok ⟨0⟩ ∧
    decay debugCfg .floor (⟨90⟩ : FP .i64 2) 6 ⟨7⟩ = .ok ⟨1⟩ ∧
    decay debugCfg .ceil (⟨90⟩ : FP .i64 2) 7 ⟨20⟩ = .ok ⟨12⟩ ∧
    decay debugCfg .nearest (⟨90⟩ : FP .i64 2) 7 ⟨20⟩ = .ok ⟨10⟩ := by decide +kernel

end Fixnum
