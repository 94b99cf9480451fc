import Verif.Props.Printing
import Verif.Props.Laws

/-! # Property C72: laws of parsing and printing -/

namespace Fixnum

open Res Spec

variable {L : Layout} {P : Nat} {ε : Type}

/-- For a text that is a literal, `from_str` depends on the denoted number only. -/
theorem fromStr_of_text {cfg : Cfg} (hv : Valid cfg L P) (hP : 1 ≤ P) {s : List Char} {l : Literal}
    (h : IsText s l) (x : FP L P) :
    FP.fromStr cfg s = .ok x ↔ value x = roundTo P .nearest l.denote := by
  obtain ⟨-, h2⟩ := parseStr_text (P := P) hv false h
  have := (h2 (by simp; omega)).ok_iff (x := x)
  rw [rawMag_roundTo] at this
  exact this

/-- C72: two texts of the same number are read as the same value, or both rejected: leading and
trailing zeros, a plus sign and surrounding white space have no influence. -/
theorem C72_same_number {cfg : Cfg} (hv : Valid cfg L P) (hP : 1 ≤ P) (s t : List Char)
    (l m : Literal) (hs : IsText s l) (ht : IsText t m) (h : l.denote = m.denote) (x : FP L P) :
    FP.fromStr cfg s = .ok x ↔ FP.fromStr cfg t = .ok x := by
  rw [fromStr_of_text hv hP hs, fromStr_of_text hv hP ht, h]

-- `"+007.2500"` and `"7.25"`
example := C72_same_number (cfg := debugCfg) (by decide) (by decide) "+007.2500".toList
  "7.25".toList ⟨some false, [0, 0, 7], some [2, 5, 0, 0]⟩ ⟨none, [7], some [2, 5]⟩
  ⟨⟨by simp, by simp⟩, [], [], by decide +kernel, by simp, by simp⟩
  ⟨⟨by simp, by simp⟩, [], [], by decide +kernel, by simp, by simp⟩ (by decide +kernel)
  (⟨7250⟩ : FP .i16 3)

/-- C72: reading preserves the order. -/
theorem C72_monotone {cfg : Cfg} (hv : Valid cfg L P) (hP : 1 ≤ P) (s t : List Char)
    (l m : Literal) (hs : IsText s l) (ht : IsText t m) (h : l.denote ≤ m.denote) (x y : FP L P)
    (hx : FP.fromStr cfg s = .ok x) (hy : FP.fromStr cfg t = .ok y) : value x ≤ value y := by
  rw [(fromStr_of_text hv hP hs x).1 hx, (fromStr_of_text hv hP ht y).1 hy]
  exact roundTo_mono P .nearest h

example := C72_monotone (cfg := debugCfg) (by decide) (by decide) "7.25".toList "7.2555".toList
  ⟨none, [7], some [2, 5]⟩ ⟨none, [7], some [2, 5, 5, 5]⟩
  ⟨⟨by simp, by simp⟩, [], [], by decide +kernel, by simp, by simp⟩
  ⟨⟨by simp, by simp⟩, [], [], by decide +kernel, by simp, by simp⟩ (by decide +kernel)
  (⟨7250⟩ : FP .i16 3) ⟨7256⟩ (by decide +kernel) (by decide +kernel)

/-- C72: reading commutes with the sign. -/
theorem C72_neg {cfg : Cfg} (hv : Valid cfg L P) (hP : 1 ≤ P) (s t : List Char)
    (l m : Literal) (hs : IsText s l) (ht : IsText t m) (h : m.denote = -l.denote) (x y : FP L P)
    (hx : FP.fromStr cfg s = .ok x) (hy : FP.fromStr cfg t = .ok y) : value y = -value x := by
  rw [(fromStr_of_text hv hP hs x).1 hx, (fromStr_of_text hv hP ht y).1 hy, h, roundTo_neg]
  rfl

example := C72_neg (cfg := debugCfg) (by decide) (by decide) "7.2555".toList "-7.2555".toList
  ⟨none, [7], some [2, 5, 5, 5]⟩ ⟨some true, [7], some [2, 5, 5, 5]⟩
  ⟨⟨by simp, by simp⟩, [], [], by decide +kernel, by simp, by simp⟩
  ⟨⟨by simp, by simp⟩, [], [], by decide +kernel, by simp, by simp⟩ (by decide +kernel)
  (⟨7256⟩ : FP .i16 3) ⟨-7256⟩ (by decide +kernel) (by decide +kernel)

/-- The nearest multiple lies in the range iff the number is less than half a unit outside it. -/
theorem representable_nearest_iff (q : ℚ) :
    Representable L P (roundTo P .nearest q) ↔
      minValue L P - 1 / 10 ^ P / 2 < q ∧ q < maxValue L P + 1 / 10 ^ P / 2 := by
  have hp := ten_pow_pos P
  unfold roundTo
  rw [representable_iff, fits_half]
  unfold minValue maxValue
  rw [rawMin_half, rawMax_half]
  have e1 : ((-half L : Int) : ℚ) / 10 ^ P - 1 / 10 ^ P / 2 < q ↔
      (-half L : ℚ) - 1 / 2 < q * 10 ^ P := by
    rw [show ((-half L : Int) : ℚ) / 10 ^ P - 1 / 10 ^ P / 2 = ((-half L : ℚ) - 1 / 2) / 10 ^ P by
      push_cast; field_simp, div_lt_iff₀ hp]
  have e2 : q < ((half L - 1 : Int) : ℚ) / 10 ^ P + 1 / 10 ^ P / 2 ↔
      q * 10 ^ P < (half L : ℚ) - 1 / 2 := by
    rw [show ((half L - 1 : Int) : ℚ) / 10 ^ P + 1 / 10 ^ P / 2 = ((half L : ℚ) - 1 / 2) / 10 ^ P by
      push_cast; field_simp; ring, lt_div_iff₀ hp]
  rw [e1, e2]
  generalize q * 10 ^ P = z
  have hh := half_pos L
  generalize half L = n at *
  have hn : (32768 : ℚ) ≤ n := by exact_mod_cast hh
  simp only [Spec.round, nearest]
  split
  · rename_i h0
    constructor
    · rintro ⟨-, h⟩
      have := Int.lt_floor_add_one (z + 1 / 2)
      have h' : ((⌊z + 1 / 2⌋ : Int) : ℚ) ≤ n - 1 := by exact_mod_cast h
      constructor <;> linarith
    · rintro ⟨-, h⟩
      have h1 : (0 : Int) ≤ ⌊z + 1 / 2⌋ := Int.floor_nonneg.2 (by linarith)
      have h2 : ⌊z + 1 / 2⌋ < n := Int.floor_lt.2 (by linarith)
      omega
  · rename_i h0
    rw [not_le] at h0
    constructor
    · rintro ⟨h, -⟩
      have := Int.ceil_lt_add_one (z - 1 / 2)
      have h' : (-n : ℚ) ≤ ((⌈z - 1 / 2⌉ : Int) : ℚ) := by exact_mod_cast h
      constructor <;> linarith
    · rintro ⟨h, -⟩
      have h1 : ⌈z - 1 / 2⌉ ≤ 0 := Int.ceil_le.2 (by push_cast; linarith)
      have h2 : -n - 1 < ⌈z - 1 / 2⌉ := Int.lt_ceil.2 (by push_cast; linarith)
      omega

/-- C72: a literal is accepted iff its number is less than half a unit outside the range. -/
theorem C72_accepts_iff {cfg : Cfg} (hv : Valid cfg L P) (hP : 1 ≤ P) (s : List Char)
    (l : Literal) (hs : IsText s l) :
    (∃ x : FP L P, FP.fromStr cfg s = .ok x) ↔
      minValue L P - value (FP.epsilon : FP L P) / 2 < l.denote ∧
        l.denote < maxValue L P + value (FP.epsilon : FP L P) / 2 := by
  rw [C52_epsilon.1, ← representable_nearest_iff]
  unfold Representable
  simp only [fromStr_of_text hv hP hs]

example := C72_accepts_iff (L := .i16) (P := 3) (cfg := debugCfg) (by decide) (by decide) "7.25".toList
  ⟨none, [7], some [2, 5]⟩ ⟨⟨by simp, by simp⟩, [], [], by decide, by simp, by simp⟩

example : (FP.fromStr debugCfg "+007.2500".toList : Res ConvErr (FP .i16 3)) = .ok ⟨7250⟩ ∧
    (FP.fromStr debugCfg "\t7.25".toList : Res ConvErr (FP .i16 3)) = .ok ⟨7250⟩ ∧
    (FP.fromStr debugCfg "-7.25".toList : Res ConvErr (FP .i16 3)) = .ok ⟨-7250⟩ ∧
    (FP.fromStr debugCfg "-32.76849".toList : Res ConvErr (FP .i16 3)) = .ok ⟨-32768⟩ ∧
    (FP.fromStr debugCfg "-32.7685".toList : Res ConvErr (FP .i16 3)) =
      .err ⟨"too big number"⟩ := by decide +kernel

/-- The hypotheses of the laws are met by `"+007.2500"` and `"7.25"`. -/
example : IsText "+007.2500".toList ⟨some false, [0, 0, 7], some [2, 5, 0, 0]⟩ ∧
    IsText "7.25".toList ⟨none, [7], some [2, 5]⟩ ∧
    (⟨some false, [0, 0, 7], some [2, 5, 0, 0]⟩ : Literal).denote =
      (⟨none, [7], some [2, 5]⟩ : Literal).denote := by
  refine ⟨⟨⟨by simp, by simp⟩, [], [], by decide +kernel, by simp, by simp⟩,
    ⟨⟨by simp, by simp⟩, [], [], by decide +kernel, by simp, by simp⟩, ?_⟩
  have h1 : natOf [0, 0, 7] = 7 := by decide
  have h2 : natOf [2, 5, 0, 0] = 2500 := by decide
  have h3 : natOf [7] = 7 := by decide
  have h4 : natOf [2, 5] = 25 := by decide
  simp only [Literal.denote, Literal.magnitude, Literal.fracDigits, Option.getD_some, h1, h2, h3, h4,
    reduceCtorEq, if_false, Option.some.injEq]
  norm_num

/-! ## Printing -/

/-- C72: the text of `-x` is the text of `x` with a minus sign in front. -/
theorem C72_display_neg {cfg : Cfg} (hv : Valid cfg L P) (hP : 1 ≤ P)
    (hL : ¬ (L = .i128 ∧ P = 38)) (x y : FP L P) (hx : 0 < value x) (hy : FP.cneg x = .ok y) :
    ∃ t, (FP.display cfg x : Res ε (List Char)) = .ok t ∧
      (FP.display cfg y : Res ε (List Char)) = .ok ('-' :: t) := by
  obtain ⟨l, h1, h2, h3, -⟩ := C28_display_types (ε := ε) hv hP hL x
  obtain ⟨m, k1, k2, k3, -⟩ := C28_display_types (ε := ε) hv hP hL y
  refine ⟨l.text, h1, ?_⟩
  have hl : l.sign = none := by
    rcases e : l.sign with _ | _ | _
    · rfl
    · exact absurd e h2.1
    · exfalso
      unfold Literal.denote at h3
      rw [e, if_pos rfl] at h3
      have : 0 ≤ l.magnitude := by unfold Literal.magnitude; positivity
      linarith
  have hmag : l.magnitude = value x := by
    unfold Literal.denote at h3; rw [hl, if_neg (by simp)] at h3; exact h3
  have hm : m = ⟨some true, l.int, l.frac⟩ := by
    refine C28_canonical_unique k2 ⟨by simp, fun _ => ?_, h2.2.2.1, h2.2.2.2⟩ ?_
    · show l.magnitude ≠ 0
      rw [hmag]; exact hx.ne'
    · rw [k3, cneg_value hy]
      show _ = if some true = some true then -l.magnitude else l.magnitude
      rw [if_pos rfl, hmag]
  rw [k1, hm]
  unfold Literal.text
  rw [hl]
  rfl

example := C72_display_neg (ε := Empty) (cfg := debugCfg) (by decide) (by decide) (by decide) (⟨1050⟩ : FP .i64 3) ⟨-1050⟩
  (by decide +kernel) (by decide +kernel)

example : (FP.display debugCfg (⟨1050⟩ : FP .i64 3) : Res Empty _) = .ok "1.05".toList ∧
    (FP.display debugCfg (⟨-1050⟩ : FP .i64 3) : Res Empty _) = .ok "-1.05".toList ∧
    FP.cneg (⟨1050⟩ : FP .i64 3) = .ok ⟨-1050⟩ := by decide +kernel

/-- C72: a canonical literal with at most `P` fractional digits that is accepted is printed again
literally, so printing is inverse to reading on canonical literals. -/
theorem C72_reprint {cfg : Cfg} (hv : Valid cfg L P) (hP : 1 ≤ P) (hL : ¬ (L = .i128 ∧ P = 38))
    (l : Literal) (hl : l.Canonical) (hlen : l.fracDigits.length ≤ P) (x : FP L P)
    (h : FP.fromStr cfg l.text = .ok x) : (FP.display cfg x : Res ε (List Char)) = .ok l.text := by
  have hw : IsText l.text l := by
    refine ⟨⟨?_, ?_⟩, [], [], by simp, by simp, by simp⟩
    · rcases hl.2.2.1 with e | ⟨d, t, e, -⟩ <;> rw [e] <;> simp
    · rcases hl.2.2.2 with e | ⟨d, t, e, -⟩ <;> rw [e] <;> simp
  obtain ⟨m, k1, k2, k3, -⟩ := C28_display_types (ε := ε) hv hP hL x
  obtain ⟨-, h2⟩ := parseStr_text (P := P) hv false hw
  have h3 := (h2 (by simp; omega)).ok_iff.1 h
  rw [rawMag_denote l hlen] at h3
  rw [k1, C28_canonical_unique k2 hl (by rw [k3, h3])]

example : (FP.display debugCfg (⟨-125000⟩ : FP .i32 4) : Res Unit _) = .ok "-12.5".toList :=
  C72_reprint (by decide) (by decide) (by decide) ⟨some true, [1, 2], some [5]⟩
    ⟨by simp, fun _ => by
      have h1 : natOf [1, 2] = 12 := by decide
      have h2 : natOf [5] = 5 := by decide
      simp only [Literal.magnitude, Literal.fracDigits, Option.getD_some, h1, h2]
      norm_num, .inr ⟨1, [2], rfl, by decide⟩, .inr ⟨5, [], rfl, by decide⟩⟩
    (by decide) _ (by decide +kernel)

example : (⟨some true, [1, 2], some [5]⟩ : Literal).Canonical ∧
    (⟨some true, [1, 2], some [5]⟩ : Literal).text = "-12.5".toList ∧
    (FP.fromStr debugCfg "-12.5".toList : Res ConvErr (FP .i32 4)) = .ok ⟨-125000⟩ := by
  refine ⟨⟨by simp, fun _ => ?_, .inr ⟨1, [2], rfl, by decide⟩, .inr ⟨5, [], rfl, by decide⟩⟩,
    by decide +kernel, by decide +kernel⟩
  have h1 : natOf [1, 2] = 12 := by decide
  have h2 : natOf [5] = 5 := by decide
  simp only [Literal.magnitude, Literal.fracDigits, Option.getD_some, h1, h2]
  norm_num

end Fixnum
