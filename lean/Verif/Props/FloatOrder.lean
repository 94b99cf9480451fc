import Verif.FloatMono
import Verif.FloatExact
import Verif.Props.Float

/-! # Properties C62–C64: order and exact form of the conversions to and from `f64` -/

namespace Fixnum

open Res Spec F64

variable {L : Layout} {P : Nat} {ε : Type}

/-! ## C62 -/

/-- C62: the conversion to `f64` is monotone, on every type and for all values, also where neither
the integral part nor the fraction is exact in `f64`. -/
theorem C62_monotone {cfg : Cfg} (hv : Valid cfg L P) (a b : FP L P) (f g : BitVec 64)
    (hf : (FP.toF64 cfg a : Res ε _) = .ok f) (hg : (FP.toF64 cfg b : Res ε _) = .ok g)
    (h : value a ≤ value b) : f64Value f ≤ f64Value g := by
  obtain ⟨hc, hc', ha, -⟩ := valid_bounds hv a
  obtain ⟨-, -, hb, -⟩ := valid_bounds hv b
  rw [toF64_eq hv] at hf hg
  cases hf
  cases hg
  refine core_mono hc hc' ha hb ?_
  rw [value_raw, value_raw] at h
  have hq : (0 : ℚ) < ((10 ^ P : Int) : ℚ) := by exact_mod_cast hc
  exact_mod_cast (div_le_div_iff_of_pos_right hq).1 h

example := C62_monotone (ε := Unit) (cfg := debugCfg) (by decide) (⟨90071992547409925⟩ : FP .i128 1)
  ⟨90071992547409951⟩ 0x4340000000000000 0x4340000000000002 (by decide +kernel) (by decide +kernel)
  (by decide +kernel)

/-- C62: a strict inequality between the `f64` implies the one between the numbers. -/
theorem C62_reflects_lt {cfg : Cfg} (hv : Valid cfg L P) (a b : FP L P) (f g : BitVec 64)
    (hf : (FP.toF64 cfg a : Res ε _) = .ok f) (hg : (FP.toF64 cfg b : Res ε _) = .ok g)
    (h : f64Value f < f64Value g) : value a < value b := by
  by_contra hc
  exact absurd (C62_monotone hv b a g f hg hf (not_lt.1 hc)) (not_le.2 h)

example := C62_reflects_lt (ε := Unit) (cfg := debugCfg) (by decide) (⟨5⟩ : FP .i64 1) ⟨15⟩ 0x3FE0000000000000
  0x3FF8000000000000 (by decide +kernel) (by decide +kernel) (by decide +kernel)

-- 9007199254740992.5 < 9007199254740993.1: the integral parts are above `2^53`
example : Valid debugCfg .i128 1 ∧
    (FP.toF64 debugCfg (⟨90071992547409925⟩ : FP .i128 1) : Res Unit _) = .ok 0x4340000000000000 ∧
    (FP.toF64 debugCfg (⟨90071992547409931⟩ : FP .i128 1) : Res Unit _) = .ok 0x4340000000000000 ∧
    (FP.toF64 debugCfg (⟨90071992547409951⟩ : FP .i128 1) : Res Unit _) = .ok 0x4340000000000002 := by
  decide +kernel

/-! ## C63 -/

theorem finish_ok {neg : Bool} {r : Nat} {x : FP L P} (h : finish L P neg r = .ok x) :
    (r : Int) ≤ rawMax L ∧ value x = (if neg then -(r : ℚ) else r) / 10 ^ P := by
  have hr : (r : Int) ≤ rawMax L := by
    by_contra hc
    rw [finish_big hc] at h
    cases h
  refine ⟨hr, ?_⟩
  obtain ⟨h1, h2⟩ := value_finish (L := L) (P := P) neg hr
  rw [h1] at h
  injection h with h
  rw [← h, h2]

theorem finish_of_le {neg : Bool} {r : Nat} (h : (r : Int) ≤ rawMax L) :
    ∃ x : FP L P, finish L P neg r = .ok x := by
  unfold finish
  rw [if_pos h]
  exact ⟨_, rfl⟩

/-- C63: the conversion from `f64` is monotone: of two finite numbers the greater one is not
converted to less, whatever was lost on the way. -/
theorem C63_monotone (cfg : Cfg) (hP : P ≤ 10 ^ 9) (f g : BitVec 64) (x y : FP L P)
    (hx : FP.tryFromF64 cfg f = .ok x) (hy : FP.tryFromF64 cfg g = .ok y)
    (h : f64Value f ≤ f64Value g) : value x ≤ value y := by
  have fin : ∀ {f : BitVec 64} {x : FP L P}, FP.tryFromF64 cfg f = .ok x → f64Finite f := by
    intro f x h
    by_contra hc
    rw [C40_not_finite cfg f hc] at h
    cases h
  have ff := fin hx
  have fg := fin hy
  have hp : (0 : ℚ) < 10 ^ P := by positivity
  have mf := magnitude_nonneg f
  have mg := magnitude_nonneg g
  by_cases nf : f64Negative f
  · by_cases ng : f64Negative g
    · have hm : f64Magnitude g ≤ f64Magnitude f := by
        unfold f64Value at h
        rw [if_pos nf, if_pos ng] at h
        linarith
      obtain ⟨r, s, hrs, hr, hs⟩ := tryFromF64_raw_mono (P := P) cfg L fg ff hP hm
      rw [hr] at hy
      rw [hs] at hx
      rw [(finish_ok hx).2, (finish_ok hy).2, decide_eq_true nf, decide_eq_true ng, if_pos rfl,
        if_pos rfl]
      have : (r : ℚ) ≤ s := by exact_mod_cast hrs
      exact div_le_div_of_nonneg_right (by linarith) hp.le
    · obtain ⟨r, -, hr⟩ := tryFromF64_spec (P := P) cfg L f ff hP
      obtain ⟨s, -, hs⟩ := tryFromF64_spec (P := P) cfg L g fg hP
      rw [hr] at hx
      rw [hs] at hy
      rw [(finish_ok hx).2, (finish_ok hy).2, decide_eq_true nf, decide_eq_false ng, if_pos rfl,
        if_neg (by simp)]
      have h1 : (0 : ℚ) ≤ r := by positivity
      have h2 : (0 : ℚ) ≤ s := by positivity
      exact div_le_div_of_nonneg_right (by linarith) hp.le
  · have key : f64Magnitude f ≤ f64Magnitude g ∧ (f64Negative g → f64Magnitude f = 0 ∧
        f64Magnitude g = 0) := by
      unfold f64Value at h
      rw [if_neg nf] at h
      split at h
      · exact ⟨by linarith, fun _ => ⟨by linarith, by linarith⟩⟩
      · exact ⟨h, fun hc => absurd hc (by assumption)⟩
    by_cases ng : f64Negative g
    · obtain ⟨h1, h2⟩ := key.2 ng
      rw [tryFromF64_zero cfg L f ff ((f64Bits_zero_iff f).2 h1)] at hx
      rw [tryFromF64_zero cfg L g fg ((f64Bits_zero_iff g).2 h2)] at hy
      rw [(finish_ok hx).2, (finish_ok hy).2]
      simp
    · obtain ⟨r, s, hrs, hr, hs⟩ := tryFromF64_raw_mono (P := P) cfg L ff fg hP key.1
      rw [hr] at hx
      rw [hs] at hy
      rw [(finish_ok hx).2, (finish_ok hy).2, decide_eq_false nf, decide_eq_false ng,
        if_neg (by simp), if_neg (by simp)]
      have : (r : ℚ) ≤ s := by exact_mod_cast hrs
      exact div_le_div_of_nonneg_right this hp.le

example := C63_monotone (L := .i64) (P := 9) debugCfg (by norm_num) 0x3FB999999999999A 0x3FD0000000000000
  ⟨100000000⟩ ⟨250000000⟩ (by decide +kernel) (by decide +kernel) (by decide +kernel)

/-- C63: whatever is not greater in absolute value than an accepted number is accepted. -/
theorem C63_accepted_interval (cfg : Cfg) (hP : P ≤ 10 ^ 9) (f g : BitVec 64) (y : FP L P)
    (hf : f64Finite f) (hy : FP.tryFromF64 cfg g = .ok y) (h : |f64Value f| ≤ |f64Value g|) :
    ∃ x : FP L P, FP.tryFromF64 cfg f = .ok x ∧ |value x| ≤ |value y| := by
  have fg : f64Finite g := by
    by_contra hc
    rw [C40_not_finite cfg g hc] at hy
    cases hy
  rw [abs_f64Value, abs_f64Value] at h
  obtain ⟨r, s, hrs, hr, hs⟩ := tryFromF64_raw_mono (P := P) cfg L hf fg hP h
  rw [hs] at hy
  obtain ⟨h1, h2⟩ := finish_ok hy
  obtain ⟨x, hx⟩ := finish_of_le (P := P) (neg := decide (f64Negative f))
    (show (r : Int) ≤ rawMax L by omega)
  refine ⟨x, by rw [hr, hx], ?_⟩
  have ab : ∀ (b : Bool) (n : Nat), |(if b = true then -(n : ℚ) else n) / 10 ^ P| = n / 10 ^ P := by
    intro b n
    rw [abs_div, abs_of_pos (show (0 : ℚ) < 10 ^ P by positivity)]
    cases b <;> simp
  rw [(finish_ok hx).2, h2, ab, ab]
  have : (r : ℚ) ≤ s := by exact_mod_cast hrs
  exact div_le_div_of_nonneg_right this (by positivity)

example := C63_accepted_interval debugCfg (by norm_num) 0x3FB999999999999A 0x3FD0000000000000
  (⟨250000000⟩ : FP .i64 9) (by decide +kernel) (by decide +kernel) (by decide +kernel)

-- 0.1 < the next `f64` < 0.25; the first two agree after conversion
example :
    (FP.tryFromF64 debugCfg 0x3FB999999999999A : Res ConvErr (FP .i64 9)) = .ok ⟨100000000⟩ ∧
    (FP.tryFromF64 debugCfg 0x3FB999999999999B : Res ConvErr (FP .i64 9)) = .ok ⟨100000000⟩ ∧
    (FP.tryFromF64 debugCfg 0x3FD0000000000000 : Res ConvErr (FP .i64 9)) = .ok ⟨250000000⟩ := by
  decide +kernel

/-! ## C64 -/

/-- The cut of a positive number exists and is unique. -/
theorem C64_cut_unique (y : ℚ) (h : 0 < y) : ∃! t, DecimalCut y t := by
  obtain ⟨g, g1, g2, g3⟩ := Spec.DecimalCut.place h
  refine ⟨_, ⟨g, g1, g2, g3, rfl⟩, ?_⟩
  intro t ht
  exact le_antisymm (ht.mono (le_refl _) ⟨g, g1, g2, g3, rfl⟩)
    (Spec.DecimalCut.mono (le_refl _) ⟨g, g1, g2, g3, rfl⟩ ht)

example := C64_cut_unique (1 / 3) (by norm_num)

/-- C64: what is computed, for every finite number other than zero.  Its absolute value `v` is
replaced by some `y`, less by at most one part in `10^34`; `y` is cut to 52 bits of decimal
significand; the cut number is rounded to the precision, both with the threshold 4/9; then the range
is checked and the sign applied.  `y` is `v` itself if `v = n/2^k` with `n·5^k < 2^128`. -/
theorem C64_exact_form (cfg : Cfg) (hP : P ≤ 10 ^ 9) (f : BitVec 64) (hf : f64Finite f)
    (h0 : f64Value f ≠ 0) :
    ∃ y t : ℚ, y ≤ |f64Value f| ∧ |f64Value f| * (1 - 1 / 10 ^ 34) ≤ y ∧
      ((∃ n k : Nat, |f64Value f| = n / 2 ^ k ∧ n * 5 ^ k < 2 ^ 128) → y = |f64Value f|) ∧
      DecimalCut y t ∧
      (round49 (t * 10 ^ P) ≤ rawMax L → ∃ x : FP L P, FP.tryFromF64 cfg f = .ok x ∧
        value x = (if f64Value f < 0 then -1 else 1) * round49 (t * 10 ^ P) / 10 ^ P) ∧
      (rawMax L < round49 (t * 10 ^ P) →
        (FP.tryFromF64 cfg f : Res ConvErr (FP L P)) = .err ⟨"too big number"⟩) := by
  have hm := magnitude_nonneg f
  have hb : f64Bits f ≠ 0 := by
    intro hc
    rw [f64Bits_zero_iff] at hc
    apply h0
    unfold f64Value
    rw [hc]
    simp
  have hm0 : 0 < f64Magnitude f :=
    lt_of_le_of_ne hm fun hc => hb ((f64Bits_zero_iff f).2 hc.symm)
  obtain ⟨r, ⟨y, t, h1, h2, h3, h4, h5⟩, hr⟩ := tryFromF64_exact (P := P) cfg L f hf hb hP
  have hneg : f64Value f < 0 ↔ f64Negative f := by
    unfold f64Value
    split
    · exact ⟨fun _ => by assumption, fun _ => by linarith⟩
    · exact ⟨fun h => by linarith, fun h => absurd h (by assumption)⟩
  rw [abs_f64Value]
  refine ⟨y, t, h1, le_trans ?_ h2, h3, h4, ?_, ?_⟩
  · refine mul_le_mul_of_nonneg_left ?_ hm
    have := tiny_lt
    linarith
  · intro hle
    rw [← h5] at hle
    obtain ⟨x, hx⟩ := finish_of_le (P := P) (neg := decide (f64Negative f)) hle
    refine ⟨x, by rw [hr, hx], ?_⟩
    rw [(finish_ok hx).2, ← h5]
    by_cases hn : f64Negative f
    · rw [if_pos (hneg.2 hn), decide_eq_true hn, if_pos rfl]
      push_cast
      ring
    · rw [if_neg (fun h => hn (hneg.1 h)), decide_eq_false hn, if_neg (by simp)]
      push_cast
      ring
  · intro hlt
    rw [← h5] at hlt
    rw [hr, finish_big (by omega)]

example := C64_exact_form (L := .i64) (P := 9) debugCfg (by norm_num) 0x3FB999999999999A
  (by decide +kernel) (by decide +kernel)

/-- C64, closed form: for `v = ±n/2^k` with `n·5^k < 2^128` nothing is lost before the cut. -/
theorem C64_closed_form (cfg : Cfg) (hP : P ≤ 10 ^ 9) (f : BitVec 64) (hf : f64Finite f)
    (n k : Nat) (h0 : 0 < n) (hv : |f64Value f| = n / 2 ^ k) (hlt : n * 5 ^ k < 2 ^ 128)
    (t : ℚ) (ht : DecimalCut (n / 2 ^ k) t) :
    (round49 (t * 10 ^ P) ≤ rawMax L → ∃ x : FP L P, FP.tryFromF64 cfg f = .ok x ∧
        value x = (if f64Value f < 0 then -1 else 1) * round49 (t * 10 ^ P) / 10 ^ P) ∧
      (rawMax L < round49 (t * 10 ^ P) →
        (FP.tryFromF64 cfg f : Res ConvErr (FP L P)) = .err ⟨"too big number"⟩) := by
  have hn : (0 : ℚ) < n := by exact_mod_cast h0
  have hq : (0 : ℚ) < n / 2 ^ k := by positivity
  obtain ⟨y, t', -, -, h3, h4, h5⟩ := C64_exact_form (L := L) cfg hP f hf (by
    intro hc
    rw [hc, abs_zero] at hv
    linarith)
  have hy := h3 ⟨n, k, hv, hlt⟩
  rw [hy, hv] at h4
  rw [(C64_cut_unique _ hq).unique ht h4]
  exact h5

example := C64_closed_form (L := .i64) (P := 0) debugCfg (by norm_num) 0x3FDE000000000000 (by decide)
  15 5 (by norm_num) (by
    rw [abs_f64Value]
    unfold f64Magnitude
    rw [show f64Exponent 0x3FDE000000000000 = 1021 by decide,
      show f64Mantissa 0x3FDE000000000000 = 3940649673949184 by decide]
    norm_num) (by norm_num) (15 / 2 ^ 5) (by
    refine ⟨-15, by norm_num, .inr (by norm_num), by norm_num, ?_⟩
    unfold round49
    have : ⌈(15 / 2 ^ 5 / 10 ^ (-15 : ℤ) - 4 / 9 : ℚ)⌉ = 468750000000000 := by
      rw [Int.ceil_eq_iff]; norm_num
    push_cast
    rw [this]
    norm_num)

-- 0.46875 = 15/2^5: kept by the cut, then 0.46875 > 4/9 goes up
example : f64Finite 0x3FDE000000000000 ∧ |f64Value 0x3FDE000000000000| = 15 / 2 ^ 5 ∧
    15 * 5 ^ 5 < 2 ^ 128 ∧ DecimalCut (15 / 2 ^ 5) (15 / 2 ^ 5) ∧
    round49 (15 / 2 ^ 5 * 10 ^ 0) = 1 ∧
    (FP.tryFromF64 debugCfg 0x3FDE000000000000 : Res ConvErr (FP .i64 0)) = .ok ⟨1⟩ := by
  refine ⟨by decide, ?_, by norm_num, ?_, ?_, by decide +kernel⟩
  · rw [abs_f64Value]
    unfold f64Magnitude
    rw [show f64Exponent 0x3FDE000000000000 = 1021 by decide,
      show f64Mantissa 0x3FDE000000000000 = 3940649673949184 by decide]
    norm_num
  · refine ⟨-15, by norm_num, .inr (by norm_num), by norm_num, ?_⟩
    unfold round49
    have : ⌈(15 / 2 ^ 5 / 10 ^ (-15 : ℤ) - 4 / 9 : ℚ)⌉ = 468750000000000 := by
      rw [Int.ceil_eq_iff]; norm_num
    rw [this]
    norm_num
  · unfold round49
    rw [Int.ceil_eq_iff]
    norm_num

end Fixnum
