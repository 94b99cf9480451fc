import Verif.Props.ErrorMax
import Verif.Props.Horner

/-! # Property C129: exponential moving averages

Client code: `avg = avg.cadd(x.csub(avg)?.rmul(alpha, mode)?)?` for every new observation `x`. -/

namespace Fixnum

open Res Spec

variable {L : Layout} {P : Nat}

/-- The client: the moving average `e` over the observations, the oldest first. -/
def movingAvg (cfg : Cfg) (mode : RoundMode) (α : FP L P) : List (FP L P) → FP L P → Res ArithErr (FP L P)
  | [], e => .ok e
  | x :: xs, e => do
    let d ← FP.csub x e
    let m ← FP.rmul cfg d α mode
    let e ← FP.cadd e m
    movingAvg cfg mode α xs e

/-- The moving average of rational numbers: what is `k` observations back has the weight
`α (1 - α)^k`, the start the rest. -/
def Spec.movingAvg (α : ℚ) (xs : List ℚ) (e : ℚ) : ℚ :=
  (1 - α) ^ xs.length * e +
    ((List.range xs.length).map fun k => α * (1 - α) ^ k * xs.reverse.getD k 0).sum

theorem spec_movingAvg_cons (α x : ℚ) (xs : List ℚ) (e : ℚ) :
    Spec.movingAvg α (x :: xs) e = Spec.movingAvg α xs (e + (x - e) * α) := by
  unfold Spec.movingAvg
  rw [List.length_cons, List.range_succ, List.map_append, List.sum_append, List.reverse_cons]
  have h1 : ((List.range xs.length).map fun k => α * (1 - α) ^ k * (xs.reverse ++ [x]).getD k 0) =
      ((List.range xs.length).map fun k => α * (1 - α) ^ k * xs.reverse.getD k 0) := by
    apply List.map_congr_left
    intro k hk
    rw [List.mem_range] at hk
    rw [List.getD_append _ _ _ _ (by rw [List.length_reverse]; exact hk)]
  rw [h1]
  simp only [List.map_cons, List.map_nil, List.sum_cons, List.sum_nil, add_zero]
  rw [List.getD_append_right _ _ _ _ (by rw [List.length_reverse]), List.length_reverse, Nat.sub_self]
  simp only [List.getD_cons_zero]
  ring

theorem spec_movingAvg_nil (α e : ℚ) : Spec.movingAvg α [] e = e := by
  unfold Spec.movingAvg; simp

theorem spec_movingAvg_shift (α : ℚ) (xs : List ℚ) (e f : ℚ) :
    Spec.movingAvg α xs e - Spec.movingAvg α xs f = (1 - α) ^ xs.length * (e - f) := by
  unfold Spec.movingAvg; ring

theorem movingAvg_cons {cfg : Cfg} {mode : RoundMode} {α x e r : FP L P} {xs : List (FP L P)}
    (h : movingAvg cfg mode α (x :: xs) e = .ok r) :
    ∃ s, lerp cfg e x α mode = .ok s ∧ movingAvg cfg mode α xs s = .ok r := by
  unfold movingAvg at h
  obtain ⟨d, h1, h⟩ := bind_ok_of h
  obtain ⟨m, h2, h⟩ := bind_ok_of h
  obtain ⟨s, h3, h⟩ := bind_ok_of h
  refine ⟨s, ?_, h⟩
  unfold lerp
  rw [h1, ok_bind, h2, ok_bind, h3]

/-- **C129** for `0 < α ≤ 1` the error stays below `1/α` units of the last digit, however many
observations there are, in every mode and build. -/
theorem C129_error {cfg : Cfg} (hv : Valid cfg L P) {mode : RoundMode} {α : FP L P} (h0 : 0 < value α)
    (h1 : value α ≤ 1) {xs : List (FP L P)} {e r : FP L P} (h : movingAvg cfg mode α xs e = .ok r) :
    |value r - Spec.movingAvg (value α) (xs.map value) (value e)| < 1 / value α / 10 ^ P := by
  have hp := ten_pow_pos P
  have key : ∀ (xs : List (FP L P)) (e : FP L P), movingAvg cfg mode α xs e = .ok r →
      |value r - Spec.movingAvg (value α) (xs.map value) (value e)| ≤
        (1 - (1 - value α) ^ xs.length) / value α / 10 ^ P := by
    intro xs
    induction xs with
    | nil =>
      intro e h
      cases h
      rw [List.map_nil, spec_movingAvg_nil]
      simp
    | cons x xs ih =>
      intro e h
      obtain ⟨s, h2, h3⟩ := movingAvg_cons h
      have i := ih s h3
      have l := (C86_lerp hv e x α s mode h0.le h1 h2).2.2
      rw [List.map_cons, spec_movingAvg_cons]
      have sh := spec_movingAvg_shift (value α) (xs.map value) (value s)
        (value e + (value x - value e) * value α)
      rw [List.length_map] at sh
      have hw : 0 ≤ (1 - value α) ^ xs.length := pow_nonneg (by linarith) _
      have hb : |(1 - value α) ^ xs.length * (value s - (value e + (value x - value e) * value α))| ≤
          (1 - value α) ^ xs.length * (1 / 10 ^ P) := by
        rw [abs_mul, abs_of_nonneg hw]
        exact mul_le_mul_of_nonneg_left l.le hw
      rw [← sh] at hb
      have tri := abs_add_le
        (value r - Spec.movingAvg (value α) (xs.map value) (value s))
        (Spec.movingAvg (value α) (xs.map value) (value s) -
          Spec.movingAvg (value α) (xs.map value) (value e + (value x - value e) * value α))
      rw [sub_add_sub_cancel] at tri
      refine le_trans tri (le_trans (add_le_add i hb) (le_of_eq ?_))
      rw [List.length_cons]
      field_simp
      ring
  have k := key xs e h
  rcases h1.eq_or_lt with ha | ha
  · -- `α = 1`: the result is the last observation itself
    have hall : ∀ (xs : List (FP L P)) (e : FP L P), movingAvg cfg mode α xs e = .ok r →
        value r = Spec.movingAvg (value α) (xs.map value) (value e) := by
      intro xs
      induction xs with
      | nil =>
        intro e h
        cases h
        rw [List.map_nil, spec_movingAvg_nil]
      | cons x xs ih =>
        intro e h
        obtain ⟨s, h2, h3⟩ := movingAvg_cons h
        have := (C86_lerp_ends hv e x α s mode h2).2 ha
        rw [List.map_cons, spec_movingAvg_cons, ih s h3, this, ha]
        congr 1
        ring
    rw [hall xs e h, sub_self, abs_zero]
    positivity
  · refine lt_of_le_of_lt k ?_
    have hw : 0 < (1 - value α) ^ xs.length := pow_pos (by linarith) _
    rw [div_lt_div_iff_of_pos_right hp, div_lt_div_iff_of_pos_right h0]
    linarith

example : movingAvg debugCfg .floor (⟨3⟩ : FP .i64 1) [⟨100⟩, ⟨105⟩, ⟨97⟩] ⟨90⟩ = .ok ⟨96⟩ ∧
    movingAvg debugCfg .ceil (⟨3⟩ : FP .i64 1) [⟨100⟩, ⟨105⟩, ⟨97⟩] ⟨90⟩ = .ok ⟨97⟩ := by decide +kernel
example := C129_error (cfg := debugCfg) (by decide) (mode := .floor) (α := (⟨3⟩ : FP .i64 1))
  (by rw [value_eq _ 3 (by decide)]; norm_num) (by rw [value_eq _ 3 (by decide)]; norm_num)
  (xs := [⟨100⟩, ⟨105⟩, ⟨97⟩]) (e := ⟨90⟩) (r := ⟨96⟩) (by decide +kernel)
/-- What is specified: 0.343·9 + 0.3·0.49·10 + 0.3·0.7·10.5 + 0.3·9.7. -/
example : Spec.movingAvg (3 / 10) [10, 105 / 10, 97 / 10] 9 = 9672 / 1000 := by
  norm_num [Spec.movingAvg, List.range_succ]

/-- **C129** the average stays among the observations and the start, in every mode and build. -/
theorem C129_bounds {cfg : Cfg} (hv : Valid cfg L P) {mode : RoundMode} {α : FP L P} (h0 : 0 ≤ value α)
    (h1 : value α ≤ 1) {xs : List (FP L P)} {lo hi : ℚ} (hx : ∀ x ∈ xs, lo ≤ value x ∧ value x ≤ hi)
    {e r : FP L P} (he : lo ≤ value e ∧ value e ≤ hi) (h : movingAvg cfg mode α xs e = .ok r) :
    lo ≤ value r ∧ value r ≤ hi := by
  induction xs generalizing e with
  | nil => cases h; exact he
  | cons x xs ih =>
    obtain ⟨s, h2, h3⟩ := movingAvg_cons h
    obtain ⟨k1, k2, -⟩ := C86_lerp hv e x α s mode h0 h1 h2
    have hx0 := hx x List.mem_cons_self
    exact ih (fun y hy => hx y (List.mem_cons_of_mem _ hy))
      ⟨le_trans (le_min he.1 hx0.1) k1, le_trans k2 (max_le he.2 hx0.2)⟩ h3

example := C129_bounds (cfg := debugCfg) (by decide) (mode := .nearest) (α := (⟨3⟩ : FP .i64 1))
  (by rw [value_eq _ 3 (by decide)]; norm_num) (by rw [value_eq _ 3 (by decide)]; norm_num)
  (xs := [⟨100⟩, ⟨105⟩]) (lo := 9) (hi := 105 / 10)
  (by
    intro x hx
    rcases List.mem_cons.1 hx with rfl | hx
    · rw [value_eq _ 100 (by decide)]; norm_num
    · rw [List.mem_singleton.1 hx, value_eq _ 105 (by decide)]; norm_num)
  (e := ⟨90⟩) (r := ⟨97⟩) (by rw [value_eq _ 90 (by decide)]; norm_num) (by decide +kernel)

theorem lerp_directed {cfg : Cfg} (hv : Valid cfg L P) {mode : RoundMode} (hm : mode ≠ .nearest)
    {α x e s : FP L P} (h : lerp cfg e x α mode = .ok s) :
    value s = value e + roundTo P mode ((value x - value e) * value α) := by
  unfold lerp at h
  obtain ⟨d, k1, h⟩ := bind_ok_of h
  obtain ⟨m, k2, k3⟩ := bind_ok_of h
  rw [C01_cadd_ok _ _ _ k3, ((C07_rmul_partial hv d α mode fun e => absurd e hm).ok_iff m).1 k2,
    C02_csub_ok _ _ _ k1]

/-- **C129** `Floor` never exceeds the exact moving average, `Ceil` is never below it. -/
theorem C129_directed {cfg : Cfg} (hv : Valid cfg L P) {α : FP L P} (h1 : value α ≤ 1)
    {xs : List (FP L P)} {e r : FP L P} :
    (movingAvg cfg .floor α xs e = .ok r →
      value r ≤ Spec.movingAvg (value α) (xs.map value) (value e)) ∧
    (movingAvg cfg .ceil α xs e = .ok r →
      Spec.movingAvg (value α) (xs.map value) (value e) ≤ value r) := by
  constructor
  · intro h
    induction xs generalizing e with
    | nil => cases h; rw [List.map_nil, spec_movingAvg_nil]
    | cons x xs ih =>
      obtain ⟨s, h2, h3⟩ := movingAvg_cons h
      have i := ih h3
      have vs := lerp_directed hv (by simp) h2
      have hf := (roundTo_floor_spec P ((value x - value e) * value α)).1
      have sh := spec_movingAvg_shift (value α) (xs.map value)
        (value e + (value x - value e) * value α) (value s)
      have hw : 0 ≤ (1 - value α) ^ (xs.map value).length := pow_nonneg (by linarith) _
      rw [List.map_cons, spec_movingAvg_cons]
      have := mul_nonneg hw (by linarith :
        0 ≤ value e + (value x - value e) * value α - value s)
      linarith
  · intro h
    induction xs generalizing e with
    | nil => cases h; rw [List.map_nil, spec_movingAvg_nil]
    | cons x xs ih =>
      obtain ⟨s, h2, h3⟩ := movingAvg_cons h
      have i := ih h3
      have vs := lerp_directed hv (by simp) h2
      have hf := (roundTo_ceil_spec P ((value x - value e) * value α)).1
      have sh := spec_movingAvg_shift (value α) (xs.map value) (value s)
        (value e + (value x - value e) * value α)
      have hw : 0 ≤ (1 - value α) ^ (xs.map value).length := pow_nonneg (by linarith) _
      rw [List.map_cons, spec_movingAvg_cons]
      have := mul_nonneg hw (by linarith :
        0 ≤ value s - (value e + (value x - value e) * value α))
      linarith

example := (C129_directed (cfg := debugCfg) (by decide) (α := (⟨3⟩ : FP .i64 1))
  (by rw [value_eq _ 3 (by decide)]; norm_num) (xs := [⟨100⟩, ⟨105⟩, ⟨97⟩]) (e := ⟨90⟩)
  (r := ⟨96⟩)).1 (by decide +kernel)
example := (C129_directed (cfg := debugCfg) (by decide) (α := (⟨3⟩ : FP .i64 1))
  (by rw [value_eq _ 3 (by decide)]; norm_num) (xs := [⟨100⟩, ⟨105⟩, ⟨97⟩]) (e := ⟨90⟩)
  (r := ⟨97⟩)).2 (by decide +kernel)

/-- Rounding down to zero means less than a unit. -/
theorem roundTo_floor_zero {q : ℚ} (h : 0 ≤ q) : roundTo P .floor q = 0 ↔ q < 1 / 10 ^ P := by
  have hp := ten_pow_pos P
  unfold roundTo
  rw [div_eq_zero_iff, or_iff_left (ten_pow_ne P), lt_div_iff₀ hp]
  change ((⌊q * 10 ^ P⌋ : Int) : ℚ) = 0 ↔ _
  rw [Int.cast_eq_zero, Int.floor_eq_zero_iff, Set.mem_Ico]
  exact ⟨fun h => h.2, fun h' => ⟨by positivity, h'⟩⟩

/-- **C129** below a constant observation, `Floor` gets stuck exactly when it is less than `1/α` units
away. -/
theorem C129_stuck {cfg : Cfg} (hv : Valid cfg L P) {α : FP L P} (h0 : 0 < value α) {x e r : FP L P}
    (hx : value e ≤ value x) (h : movingAvg cfg .floor α [x] e = .ok r) :
    r = e ↔ value x - value e < 1 / value α / 10 ^ P := by
  obtain ⟨s, h2, h3⟩ := movingAvg_cons h
  cases h3
  have vs := lerp_directed hv (by simp) h2
  have hd : 0 ≤ (value x - value e) * value α := mul_nonneg (by linarith) h0.le
  have z := roundTo_floor_zero (P := P) hd
  rw [show 1 / value α / 10 ^ P = 1 / 10 ^ P / value α by ring, lt_div_iff₀ h0, ← z]
  constructor
  · rintro rfl
    linarith
  · intro hz
    rw [hz, add_zero] at vs
    exact value_inj vs

/-- With the weight 0.3 and one digit, 9.7 is where the average of a constant 10.0 ends. -/
example : movingAvg debugCfg .floor (⟨3⟩ : FP .i64 1) [⟨100⟩] ⟨97⟩ = .ok ⟨97⟩ ∧
    movingAvg debugCfg .floor (⟨3⟩ : FP .i64 1) [⟨100⟩] ⟨96⟩ = .ok ⟨97⟩ := by decide +kernel
example := C129_stuck (cfg := debugCfg) (by decide) (α := (⟨3⟩ : FP .i64 1))
  (by rw [value_eq _ 3 (by decide)]; norm_num) (x := ⟨100⟩) (e := ⟨97⟩) (r := ⟨97⟩)
  (by rw [value_eq _ 97 (by decide), value_eq _ 100 (by decide)]; norm_num) (by decide +kernel)

/-- **C129** rounding towards a constant observation, `Ceil` from below and `Floor` from above, the
average arrives at it, after at most as many rounds as it is units away. -/
theorem C129_arrives {cfg : Cfg} (hv : Valid cfg L P) {mode : RoundMode} {α : FP L P} (h0 : 0 < value α)
    (h1 : value α ≤ 1) {x : FP L P} (n : Nat) {e r : FP L P}
    (hx : mode = .ceil ∧ value e ≤ value x ∨ mode = .floor ∧ value x ≤ value e)
    (hd : |value x - value e| ≤ n / 10 ^ P)
    (h : movingAvg cfg mode α (List.replicate n x) e = .ok r) : r = x := by
  have hp := ten_pow_pos P
  induction n generalizing e with
  | zero =>
    cases h
    rw [Nat.cast_zero, zero_div, abs_le] at hd
    exact value_inj (by linarith)
  | succ n ih =>
    rw [List.replicate_succ] at h
    obtain ⟨s, h2, h3⟩ := movingAvg_cons h
    obtain ⟨b1, b2, -⟩ := C86_lerp hv e x α s mode h0.le h1 h2
    push_cast at hd
    rw [add_div, abs_le] at hd
    -- a number of the type strictly above another is a unit above it
    have unit : ∀ {a b : FP L P}, value a < value b → value a + 1 / 10 ^ P ≤ value b := by
      intro a b hab
      rw [value_lt_iff] at hab
      unfold value
      rw [← add_div, div_le_div_iff_of_pos_right hp]
      exact_mod_cast hab
    rcases hx with ⟨rfl, hx⟩ | ⟨rfl, hx⟩
    · rw [min_eq_left hx] at b1
      rw [max_eq_right hx] at b2
      refine ih (.inl ⟨rfl, b2⟩) ?_ h3
      rw [abs_of_nonneg (by linarith)]
      rcases hx.eq_or_lt with he | hlt
      · have : value s = value x := le_antisymm b2 (by linarith)
        rw [this, sub_self]
        positivity
      · have vs := lerp_directed hv (by simp) h2
        have hc := (roundTo_ceil_spec P ((value x - value e) * value α)).1
        have := mul_pos (by linarith : 0 < value x - value e) h0
        have := unit (by linarith : value e < value s)
        linarith
    · rw [min_eq_right hx] at b1
      rw [max_eq_left hx] at b2
      refine ih (.inr ⟨rfl, b1⟩) ?_ h3
      rw [abs_of_nonpos (by linarith)]
      rcases hx.eq_or_lt with he | hlt
      · have : value s = value x := le_antisymm (by linarith) b1
        rw [this, sub_self, neg_zero]
        positivity
      · have vs := lerp_directed hv (by simp) h2
        have hc := (roundTo_floor_spec P ((value x - value e) * value α)).1
        have := mul_neg_of_neg_of_pos (by linarith : value x - value e < 0) h0
        have := unit (by linarith : value s < value e)
        linarith

example : movingAvg debugCfg .ceil (⟨3⟩ : FP .i64 1) (List.replicate 9 ⟨100⟩) ⟨80⟩ = .ok ⟨100⟩ := by
  decide +kernel
example := C129_arrives (cfg := debugCfg) (by decide) (mode := .ceil) (α := (⟨3⟩ : FP .i64 1))
  (by rw [value_eq _ 3 (by decide)]; norm_num) (by rw [value_eq _ 3 (by decide)]; norm_num)
  (x := ⟨100⟩) 20 (e := ⟨80⟩) (r := ⟨100⟩)
  (.inl ⟨rfl, by rw [value_eq _ 80 (by decide), value_eq _ 100 (by decide)]; norm_num⟩)
  (by rw [value_eq (⟨100⟩ : FP .i64 1) 100 (by decide), value_eq (⟨80⟩ : FP .i64 1) 80 (by decide)]; norm_num [abs_of_pos])
  (by decide +kernel)

/-- **C129** no call fails, if all differences are in the range. -/
theorem C129_returns {cfg : Cfg} (hv : Valid cfg L P) {mode : RoundMode}
    (hm : mode = .nearest → ¬ (L = .i128 ∧ P = 38))
    {α : FP L P} (h0 : 0 ≤ value α) (h1 : value α ≤ 1) {xs : List (FP L P)} {lo hi : ℚ}
    (hx : ∀ x ∈ xs, lo ≤ value x ∧ value x ≤ hi) (e : FP L P) (he : lo ≤ value e ∧ value e ≤ hi)
    (hr : hi - lo ≤ maxValue L P) : ∃ r, movingAvg cfg mode α xs e = .ok r := by
  induction xs generalizing e with
  | nil => exact ⟨e, rfl⟩
  | cons x xs ih =>
    have hx0 := hx x List.mem_cons_self
    have rep : Representable L P (value x - value e) := by
      have eq : value x - value e = ((x.inner.toInt - e.inner.toInt : Int) : ℚ) / 10 ^ P := by
        unfold value; push_cast; ring
      have : |value x - value e| ≤ maxValue L P := by
        rw [abs_le]; constructor <;> linarith
      rw [eq] at this ⊢
      exact representable_of_abs_le this
    obtain ⟨d, d1, -⟩ := (C02_csub_exact x e).1 rep
    obtain ⟨s, s1⟩ := C86_lerp_exists hv e x α d mode hm h0 h1 d1
    obtain ⟨k1, k2, -⟩ := C86_lerp hv e x α s mode h0 h1 s1
    obtain ⟨r, hr⟩ := ih (fun y hy => hx y (List.mem_cons_of_mem _ hy)) s
      ⟨le_trans (le_min he.1 hx0.1) k1, le_trans k2 (max_le he.2 hx0.2)⟩
    refine ⟨r, ?_⟩
    unfold lerp at s1
    obtain ⟨d', g1, s1⟩ := bind_ok_of s1
    obtain ⟨m, g2, g3⟩ := bind_ok_of s1
    unfold movingAvg
    rw [g1, ok_bind, g2, ok_bind, g3, ok_bind, hr]

example := C129_returns (cfg := debugCfg) (by decide) (mode := .nearest) (by decide)
  (α := (⟨3⟩ : FP .i16 1)) (by rw [value_eq _ 3 (by decide)]; norm_num)
  (by rw [value_eq _ 3 (by decide)]; norm_num) (xs := [⟨30000⟩, ⟨300⟩]) (lo := 0) (hi := 3000)
  (by
    intro x hx
    rcases List.mem_cons.1 hx with rfl | hx
    · rw [value_eq _ 30000 (by decide)]; norm_num
    · rw [List.mem_singleton.1 hx, value_eq _ 300 (by decide)]; norm_num)
  ⟨0⟩ (by rw [value_eq _ 0 (by decide)]; norm_num) (by unfold maxValue; norm_num [rawMax, Layout.bits])
/-- A difference out of the range. -/
example : movingAvg debugCfg .floor (⟨3⟩ : FP .i16 1) [⟨30000⟩] ⟨-3000⟩ = .err .overflow := by
  decide +kernel

end Fixnum
