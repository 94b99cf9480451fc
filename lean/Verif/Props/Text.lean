import Verif.DisplayBasic

/-! # Properties C28 to C33: printing and parsing -/

namespace Fixnum

open Res Spec

variable {L : Layout} {P : Nat} {ε : Type}

/-! ## C31: exact parsing -/

/-- C31: the accepted texts are exactly the decimal literals with at most `P` fractional digits
whose number is representable, and the result is that number. -/
theorem C31_from_str_exact_iff {cfg : Cfg} (hv : Valid cfg L P) (s : List Char) (x : FP L P) :
    FP.fromStrExact cfg s = .ok x ↔
      ∃ l, IsText s l ∧ l.fracDigits.length ≤ P ∧ l.denote = value x := by
  unfold FP.fromStrExact
  constructor
  · intro h
    by_cases ht : ∃ l, IsText s l
    · obtain ⟨l, hl⟩ := ht
      obtain ⟨h1, h2⟩ := parseStr_text (P := P) hv true hl
      by_cases hlen : P < l.fracDigits.length
      · obtain ⟨e, he⟩ := h1 ⟨hlen, .inl rfl⟩
        rw [he] at h; cases h
      · refine ⟨l, hl, not_lt.1 hlen, ?_⟩
        rw [← rawMag_denote l (not_lt.1 hlen)]
        exact ((h2 fun h => hlen h.1).ok_iff.1 h).symm
    · obtain ⟨e, he⟩ := parseStr_reject (P := P) hv true ht
      rw [he] at h; cases h
  · rintro ⟨l, hl, hlen, hd⟩
    obtain ⟨-, h2⟩ := parseStr_text (P := P) hv true hl
    rw [(h2 fun h => absurd h.1 (not_lt.2 hlen)).ok_iff, rawMag_denote l hlen, hd]

example := C31_from_str_exact_iff (cfg := debugCfg) (by decide) " -12.345\n".toList
  (⟨-12345⟩ : FP .i16 3)

theorem parseStr_returns {cfg : Cfg} (hv : Valid cfg L P) (exact : Bool) (s : List Char) :
    (∃ x : FP L P, FP.parseStr cfg exact s = .ok x) ∨
      ∃ e, (FP.parseStr cfg exact s : Res ConvErr (FP L P)) = .err e := by
  by_cases ht : ∃ l, IsText s l
  · obtain ⟨l, hl⟩ := ht
    obtain ⟨h1, h2⟩ := parseStr_text (P := P) hv exact hl
    by_cases hc : P < l.fracDigits.length ∧ (exact = true ∨ P = 0)
    · exact .inr (h1 hc)
    · exact (h2 hc).returns
  · exact .inr (parseStr_reject hv exact ht)

/-- C31: on every other text the result is an error; there is no panic, in any build. -/
theorem C31_from_str_exact_returns {cfg : Cfg} (hv : Valid cfg L P) (s : List Char) :
    (∃ x : FP L P, FP.fromStrExact cfg s = .ok x) ∨
      ∃ e, (FP.fromStrExact cfg s : Res ConvErr (FP L P)) = .err e :=
  parseStr_returns hv true s

example : (FP.fromStrExact debugCfg " -12.345\n".toList : Res ConvErr (FP .i16 3)) =
    .ok ⟨-12345⟩ ∧
    (FP.fromStrExact debugCfg "12.3456".toList : Res ConvErr (FP .i16 3)) =
      .err ⟨"requested precision is too high"⟩ ∧
    (FP.fromStrExact debugCfg "-32.768".toList : Res ConvErr (FP .i16 3)) = .ok ⟨-32768⟩ ∧
    (FP.fromStrExact debugCfg "32.768".toList : Res ConvErr (FP .i16 3)) =
      .err ⟨"too big number"⟩ ∧
    (FP.fromStrExact debugCfg "1.-5".toList : Res ConvErr (FP .i16 3)) =
      .err ⟨"can't parse fractional part: must contain digits only"⟩ := by decide +kernel

/-- The hypotheses of C31 are met by a negative literal between white space. -/
example : ∃ l, IsText " -12.345\n".toList l ∧ l.fracDigits.length ≤ 3 ∧
    l.denote = value (⟨-12345⟩ : FP .i16 3) := by
  refine ⟨⟨some true, [1, 2], some [3, 4, 5]⟩, ⟨⟨by simp, by simp⟩, [' '], ['\n'], by decide +kernel,
    by simp [whiteSpace], by simp [whiteSpace]⟩, by simp [Literal.fracDigits], ?_⟩
  rw [value_eq _ (-12345) (by decide)]
  have h1 : natOf [1, 2] = 12 := by decide
  have h2 : natOf [3, 4, 5] = 345 := by decide
  simp only [Literal.denote, Literal.magnitude, Literal.fracDigits, Option.getD_some, h1, h2]
  norm_num

/-! ## C32: parsing with rounding -/

/-- C32: a decimal literal, with a fraction of any length, gives its number rounded to the nearest
multiple of `10^-P`, halves away from zero. -/
theorem C32_from_str_iff {cfg : Cfg} (hv : Valid cfg L P) (hP : 1 ≤ P) (s : List Char)
    (x : FP L P) :
    FP.fromStr cfg s = .ok x ↔ ∃ l, IsText s l ∧ value x = roundTo P .nearest l.denote := by
  unfold FP.fromStr
  constructor
  · intro h
    by_cases ht : ∃ l, IsText s l
    · obtain ⟨l, hl⟩ := ht
      obtain ⟨-, h2⟩ := parseStr_text (P := P) hv false hl
      refine ⟨l, hl, ?_⟩
      rw [← rawMag_roundTo]
      exact (h2 (by simp; omega)).ok_iff.1 h
    · obtain ⟨e, he⟩ := parseStr_reject (P := P) hv false ht
      rw [he] at h; cases h
  · rintro ⟨l, hl, hd⟩
    obtain ⟨-, h2⟩ := parseStr_text (P := P) hv false hl
    rw [(h2 (by simp; omega)).ok_iff, rawMag_roundTo, hd]

example := C32_from_str_iff (cfg := debugCfg) (by decide) (by decide) "-0.12345".toList
  (⟨-1235⟩ : FP .i64 4)

/-- C32: on every other text (and where the rounded number is out of range) the result is an error;
there is no panic, in any build. -/
theorem C32_from_str_returns {cfg : Cfg} (hv : Valid cfg L P) (s : List Char) :
    (∃ x : FP L P, FP.fromStr cfg s = .ok x) ∨
      ∃ e, (FP.fromStr cfg s : Res ConvErr (FP L P)) = .err e :=
  parseStr_returns hv false s

example := C32_from_str_returns (cfg := debugCfg) (L := .i64) (P := 4) (by decide) "-0.x".toList

/-- Outside C32: at precision 0 every text with a point is rejected. -/
theorem C32_from_str_zero_precision {cfg : Cfg} (hv : Valid cfg L 0) (s : List Char) (x : FP L 0) :
    FP.fromStr cfg s = .ok x ↔ ∃ l, IsText s l ∧ l.frac = none ∧ l.denote = value x := by
  unfold FP.fromStr
  constructor
  · intro h
    by_cases ht : ∃ l, IsText s l
    · obtain ⟨l, hl⟩ := ht
      obtain ⟨h1, h2⟩ := parseStr_text (P := 0) hv false hl
      by_cases hlen : 0 < l.fracDigits.length
      · obtain ⟨e, he⟩ := h1 ⟨hlen, .inr rfl⟩
        rw [he] at h; cases h
      · refine ⟨l, hl, ?_, ?_⟩
        · unfold Literal.fracDigits at hlen
          rcases hf : l.frac with _ | f
          · rfl
          · exfalso
            apply hl.1.2
            rw [hf] at hlen ⊢
            rw [Option.getD_some] at hlen
            rw [List.eq_nil_of_length_eq_zero (l := f) (by omega)]
        · rw [← rawMag_denote (P := 0) l (by omega)]
          exact ((h2 fun h => hlen h.1).ok_iff.1 h).symm
    · obtain ⟨e, he⟩ := parseStr_reject (P := 0) hv false ht
      rw [he] at h; cases h
  · rintro ⟨l, hl, hf, hd⟩
    have h0 : l.fracDigits.length = 0 := by unfold Literal.fracDigits; rw [hf]; rfl
    obtain ⟨-, h2⟩ := parseStr_text (P := 0) hv false hl
    rw [(h2 fun h => by omega).ok_iff, rawMag_denote l (by omega), hd]

example : (FP.fromStr debugCfg "-0.12345".toList : Res ConvErr (FP .i64 4)) = .ok ⟨-1235⟩ ∧
    (FP.fromStr debugCfg "0.1234499999999999999999999999999".toList :
      Res ConvErr (FP .i64 4)) = .ok ⟨1234⟩ ∧
    (FP.fromStr debugCfg "32.7674".toList : Res ConvErr (FP .i16 3)) = .ok ⟨32767⟩ ∧
    (FP.fromStr debugCfg "32.7675".toList : Res ConvErr (FP .i16 3)) =
      .err ⟨"too big number"⟩ ∧
    (FP.fromStr debugCfg "1.0".toList : Res ConvErr (FP .i16 0)) =
      .err ⟨"can't parse fractional part"⟩ := by decide +kernel
example : Valid debugCfg .i64 4 ∧ 1 ≤ 4 ∧ ∃ l, IsText "-0.12345".toList l ∧
    value (⟨-1235⟩ : FP .i64 4) = roundTo 4 .nearest l.denote := by
  refine ⟨by decide, by decide, ⟨some true, [0], some [1, 2, 3, 4, 5]⟩, ⟨⟨by simp, by simp⟩, [], [],
    by decide +kernel, by simp, by simp⟩, ?_⟩
  rw [value_eq _ (-1235) (by decide),
    roundTo_div .nearest _ (n := -12345) (d := 10) (by decide) (by
      have h1 : natOf [0] = 0 := by decide
      have h2 : natOf [1, 2, 3, 4, 5] = 12345 := by decide
      simp only [Literal.denote, Literal.magnitude, Literal.fracDigits, Option.getD_some, h1, h2]
      norm_num)]
  have : roundDiv .nearest (-12345) 10 = -1235 := by decide
  rw [this]

/-! ## C33: the two parsers agree -/

/-- C33: what exact parsing accepts, parsing with rounding reads as the same value. -/
theorem C33_from_str_extends_exact {cfg : Cfg} (hv : Valid cfg L P) (s : List Char) (x : FP L P)
    (h : FP.fromStrExact cfg s = .ok x) : FP.fromStr cfg s = .ok x := by
  obtain ⟨l, hl, hlen, hd⟩ := (C31_from_str_exact_iff hv s x).1 h
  unfold FP.fromStr
  obtain ⟨-, h2⟩ := parseStr_text (P := P) hv false hl
  rw [(h2 fun h => absurd h.1 (not_lt.2 hlen)).ok_iff, rawMag_denote l hlen, hd]

example := C33_from_str_extends_exact (cfg := debugCfg) (by decide) "+007.50".toList (⟨7500000000⟩ : FP .i64 9)
  (by decide +kernel)

example : (FP.fromStrExact releaseCfg "+007.50".toList : Res ConvErr (FP .i128 18)) =
      .ok ⟨7500000000000000000⟩ ∧
    (FP.fromStr releaseCfg "+007.50".toList : Res ConvErr (FP .i128 18)) =
      .ok ⟨7500000000000000000⟩ := by decide +kernel

/-! ## C28: printing -/

theorem layout_digits (L : Layout) : ∃ D, half L < 10 ^ D ∧ D ≤ 39 ∧ (L ≠ .i128 → D ≤ 19) ∧
    ∀ P : Nat, (10 : Int) ^ P ≤ rawMax L → P < D := by
  have key : ∀ D : Nat, half L < 10 ^ D → ∀ P : Nat, (10 : Int) ^ P ≤ rawMax L → P < D := by
    intro D hD P hP
    rw [rawMax_half] at hP
    have : (10 : Int) ^ P < 10 ^ D := by omega
    exact (pow_lt_pow_iff_right₀ (by norm_num : (1 : Int) < 10)).1 this
  cases L
  · exact ⟨5, by decide, by decide, by decide, key 5 (by decide)⟩
  · exact ⟨10, by decide, by decide, by decide, key 10 (by decide)⟩
  · exact ⟨19, by decide, by decide, by decide, key 19 (by decide)⟩
  · exact ⟨39, by decide, by decide, by decide, key 39 (by decide)⟩

/-- C28: the printed text is a canonical literal of the exact value (and such a literal is unique,
`C28_canonical_unique`).  The hypothesis on the fraction excludes only `i128` with 38 digits, see
`C28_display_types`. -/
theorem C28_display {cfg : Cfg} (hv : Valid cfg L P) (hP : 1 ≤ P) (x : FP L P)
    (h : x.inner.toInt.tmod (10 ^ P) = 0 ∨ |x.inner.toInt.tmod (10 ^ P)| + 10 ^ P ≤ rawMax L) :
    ∃ l : Literal, (FP.display cfg x : Res ε (List Char)) = .ok l.text ∧ l.Canonical ∧
      l.denote = value x ∧ l.fracDigits.length ≤ P := by
  obtain ⟨D, h1, h2, h3, h4⟩ := layout_digits L
  have hPD := h4 P hv.1
  have hfx := toInt_fits x.inner
  obtain ⟨l, e1, e2, e3, e4⟩ := display_spec (ε := ε) hv x (fun h => by omega) h (k := D - P)
    (by omega) (by
      rw [Nat.sub_add_cancel (by omega)]
      refine lt_of_le_of_lt ?_ h1
      rw [fits_half] at hfx
      rw [abs_le]; omega) (by
      have : (if x.inner.toInt < 0 then 1 else 0) ≤ 1 := by split <;> omega
      have : D + 2 ≤ strBufMaxLen cfg := by
        unfold strBufMaxLen
        by_cases hL : L = .i128
        · rw [if_pos (hv.2 hL)]; omega
        · have := h3 hL
          split <;> omega
      omega)
  exact ⟨l, e1, e2, e3, by omega⟩

example := C28_display (ε := Unit) (cfg := debugCfg) (by decide) (by decide) (⟨-1⟩ : FP .i64 9)
  (.inr (by decide))

theorem fraction_small {cfg : Cfg} (hv : Valid cfg L P) (hL : ¬ (L = .i128 ∧ P = 38)) (r : Int) :
    |r.tmod (10 ^ P)| + 10 ^ P ≤ rawMax L := by
  have h1 := two_ten_pow_le hv hL
  have h2 : |r.tmod (10 ^ P)| < 10 ^ P := by
    have := tmod_abs_lt r (show (10 : Int) ^ P ≠ 0 by positivity)
    rwa [abs_of_pos (by positivity : (0 : Int) < 10 ^ P)] at this
  omega

/-- C28 for every type other than `i128` with 38 digits. -/
theorem C28_display_types {cfg : Cfg} (hv : Valid cfg L P) (hP : 1 ≤ P)
    (hL : ¬ (L = .i128 ∧ P = 38)) (x : FP L P) :
    ∃ l : Literal, (FP.display cfg x : Res ε (List Char)) = .ok l.text ∧ l.Canonical ∧
      l.denote = value x ∧ l.fracDigits.length ≤ P :=
  C28_display hv hP x (.inr (fraction_small hv hL _))

example := C28_display_types (ε := Unit) (cfg := debugCfg) (by decide) (by decide) (by decide)
  (FP.min : FP .i64 9)

/-- C28 at precision 0: printed like `"42.0"`, except for `MIN`, and for negative numbers filling
the whole buffer. -/
theorem C28_display_zero_precision {cfg : Cfg} (hv : Valid cfg L 0) (x : FP L 0)
    (hm : value x ≠ minValue L 0)
    (hb : 0 ≤ value x ∨ |value x| < 10 ^ (if cfg.i128 = true then 38 else 18)) :
    ∃ l : Literal, (FP.display cfg x : Res ε (List Char)) = .ok l.text ∧ l.Canonical ∧
      l.denote = value x := by
  have hval : value x = (x.inner.toInt : ℚ) := by unfold value; simp
  have hfx := toInt_fits x.inner
  have hmin : x.inner.toInt ≠ rawMin L := by
    intro h; apply hm
    rw [hval, h]; unfold minValue; simp
  obtain ⟨D, h1, h2, h3, -⟩ := layout_digits L
  have hD1 : 1 ≤ D := by
    by_contra hD
    have := half_pos L
    have : D = 0 := by omega
    rw [this, pow_zero] at h1; omega
  have h0 : x.inner.toInt.tmod (10 ^ 0) = 0 := by rw [pow_zero, Int.tmod_one]
  have hab : |x.inner.toInt| < 10 ^ D := by
    refine lt_of_le_of_lt ?_ h1
    rw [fits_half] at hfx
    rw [abs_le]; omega
  have hbuf : D + 2 ≤ strBufMaxLen cfg := by
    unfold strBufMaxLen
    by_cases hL : L = .i128
    · rw [if_pos (hv.2 hL)]; omega
    · have := h3 hL
      split <;> omega
  by_cases hn : 0 ≤ x.inner.toInt
  · obtain ⟨l, e1, e2, e3, e4⟩ := display_spec (ε := ε) hv x (fun _ => hmin) (.inl h0) (k := D)
      hD1 hab (by rw [if_neg (by omega)]; omega)
    exact ⟨l, e1, e2, e3⟩
  · have hb' : |x.inner.toInt| < 10 ^ (if cfg.i128 = true then 38 else 18) := by
      rcases hb with hb | hb
      · exact absurd (by rw [hval] at hb; exact_mod_cast hb) hn
      · rw [hval] at hb; exact_mod_cast hb
    obtain ⟨l, e1, e2, e3, e4⟩ := display_spec (ε := ε) hv x (fun _ => hmin) (.inl h0)
      (k := if cfg.i128 = true then 38 else 18) (by split <;> omega) hb' (by
        unfold strBufMaxLen
        rw [if_pos (by omega)]
        split <;> simp)
    exact ⟨l, e1, e2, e3⟩

example := C28_display_zero_precision (ε := Unit) (cfg := debugCfg) (by decide) (⟨-42⟩ : FP .i64 0)
  (by decide +kernel) (.inr (by decide +kernel))

/-! A canonical literal is determined by its number. -/

theorem natOf_inj {a b : List (Fin 10)} (hl : a.length = b.length) (h : natOf a = natOf b) :
    a = b := by
  induction a generalizing b with
  | nil => exact (List.eq_nil_of_length_eq_zero hl.symm).symm
  | cons d a ih =>
    cases b with
    | nil => simp at hl
    | cons e b =>
      rw [List.length_cons, List.length_cons] at hl
      have hl' : a.length = b.length := by omega
      rw [natOf_cons, natOf_cons, hl'] at h
      have h1 := natOf_lt a
      have h2 := natOf_lt b
      rw [hl'] at h1
      generalize 10 ^ b.length = p at *
      have hde : d.val = e.val := by
        rcases lt_trichotomy d.val e.val with hlt | heq | hgt
        · have : (d.val + 1) * p ≤ e.val * p := Nat.mul_le_mul_right _ hlt
          rw [Nat.add_mul] at this; omega
        · exact heq
        · have : (e.val + 1) * p ≤ d.val * p := Nat.mul_le_mul_right _ hgt
          rw [Nat.add_mul] at this; omega
      have hde' : d = e := Fin.ext hde
      subst hde'
      rw [ih hl' (by omega)]

theorem int_digits_inj {a b : List (Fin 10)} (ha : a = [0] ∨ ∃ d t, a = d :: t ∧ d ≠ 0)
    (hb : b = [0] ∨ ∃ d t, b = d :: t ∧ d ≠ 0) (h : natOf a = natOf b) : a = b := by
  have hne : ∀ {c : List (Fin 10)}, (c = [0] ∨ ∃ d t, c = d :: t ∧ d ≠ 0) → 1 ≤ c.length := by
    rintro c (rfl | ⟨d, t, rfl, -⟩) <;> simp
  have h1 := length_le_of_natOf ha h (hne hb) (natOf_lt b)
  have h2 := length_le_of_natOf hb h.symm (hne ha) (natOf_lt a)
  exact natOf_inj (by omega) h

theorem frac_digits_inj {a b : List (Fin 10)} (ha : a = [0] ∨ ∃ d t, a = t ++ [d] ∧ d ≠ 0)
    (hb : b = [0] ∨ ∃ d t, b = t ++ [d] ∧ d ≠ 0)
    (h : natOf a * 10 ^ b.length = natOf b * 10 ^ a.length) : a = b := by
  have hne : ∀ {c : List (Fin 10)}, (c = [0] ∨ ∃ d t, c = t ++ [d] ∧ d ≠ 0) → 1 ≤ c.length := by
    rintro c (rfl | ⟨d, t, rfl, -⟩) <;> simp
  have key : ∀ {a b : List (Fin 10)}, (a = [0] ∨ ∃ d t, a = t ++ [d] ∧ d ≠ 0) →
      (b = [0] ∨ ∃ d t, b = t ++ [d] ∧ d ≠ 0) →
      natOf a * 10 ^ b.length = natOf b * 10 ^ a.length → b.length ≤ a.length := by
    intro a b ha hb h
    by_contra hlt
    obtain ⟨k, hk⟩ : ∃ k, b.length = a.length + (k + 1) := ⟨b.length - a.length - 1, by omega⟩
    have hp : 0 < 10 ^ a.length := by positivity
    have e : natOf b = natOf a * 10 ^ k * 10 := by
      rw [hk] at h
      have : natOf b * 10 ^ a.length = (natOf a * 10 ^ k * 10) * 10 ^ a.length := by
        rw [← h, pow_add, pow_succ]; ring
      exact Nat.eq_of_mul_eq_mul_right hp this
    rcases hb with rfl | ⟨d, t, rfl, hd⟩
    · have := hne ha
      rw [List.length_singleton] at hk; omega
    · rw [natOf_append] at e
      simp only [natOf, List.foldl_cons, List.foldl_nil, List.length_singleton, pow_one] at e
      have : d.val ≠ 0 := fun h => hd (Fin.ext h)
      have := d.2
      omega
  have hl : a.length = b.length := le_antisymm (key hb ha h.symm) (key ha hb h)
  refine natOf_inj hl ?_
  rw [hl] at h
  exact Nat.eq_of_mul_eq_mul_right (by positivity) h

/-- Two canonical literals of the same number are equal. -/
theorem C28_canonical_unique {l m : Literal} (hl : l.Canonical) (hm : m.Canonical)
    (h : l.denote = m.denote) : l = m := by
  have fl : ∀ f : List (Fin 10), 0 ≤ (natOf f : ℚ) / 10 ^ f.length ∧
      (natOf f : ℚ) / 10 ^ f.length < 1 := by
    intro f
    have hp := ten_pow_pos f.length
    refine ⟨by positivity, ?_⟩
    rw [div_lt_one hp]
    exact_mod_cast natOf_lt f
  have m0 : ∀ l : Literal, 0 ≤ l.magnitude := fun l => by
    have := (fl l.fracDigits).1
    unfold Literal.magnitude; positivity
  -- the sign
  have hs : l.sign = m.sign ∧ l.magnitude = m.magnitude := by
    have sg : ∀ l : Literal, l.Canonical → (l.sign = none ∧ l.denote = l.magnitude) ∨
        (l.sign = some true ∧ l.denote = -l.magnitude ∧ 0 < l.magnitude) := by
      intro l hl
      rcases e : l.sign with _ | _ | _
      · left; refine ⟨rfl, ?_⟩; unfold Literal.denote; rw [e]; simp
      · exact absurd e hl.1
      · right
        refine ⟨rfl, ?_, lt_of_le_of_ne (m0 l) (hl.2.1 e).symm⟩
        unfold Literal.denote; rw [e]; simp
    rcases sg l hl with ⟨a1, a2⟩ | ⟨a1, a2, a3⟩ <;> rcases sg m hm with ⟨b1, b2⟩ | ⟨b1, b2, b3⟩
    · exact ⟨by rw [a1, b1], by rw [← a2, ← b2, h]⟩
    · have := m0 l; rw [a2, b2] at h; linarith
    · have := m0 m; rw [a2, b2] at h; linarith
    · exact ⟨by rw [a1, b1], by rw [a2, b2] at h; linarith⟩
  obtain ⟨hs, hmag⟩ := hs
  unfold Literal.magnitude at hmag
  -- the integral part
  have hi : natOf l.int = natOf m.int := by
    have h1 := fl l.fracDigits
    have h2 := fl m.fracDigits
    have h3 : (natOf l.int : ℚ) < natOf m.int + 1 := by linarith
    have h4 : (natOf m.int : ℚ) < natOf l.int + 1 := by linarith
    have h3' : natOf l.int < natOf m.int + 1 := by exact_mod_cast h3
    have h4' : natOf m.int < natOf l.int + 1 := by exact_mod_cast h4
    omega
  have hint := int_digits_inj hl.2.2.1 hm.2.2.1 hi
  -- the fraction
  obtain ⟨f, hlf, hf⟩ : ∃ f, l.frac = some f ∧ (f = [0] ∨ ∃ d t, f = t ++ [d] ∧ d ≠ 0) := by
    rcases hl.2.2.2 with e | ⟨d, t, e, hd⟩
    · exact ⟨_, e, .inl rfl⟩
    · exact ⟨_, e, .inr ⟨d, t, rfl, hd⟩⟩
  obtain ⟨g, hmg, hg⟩ : ∃ f, m.frac = some f ∧ (f = [0] ∨ ∃ d t, f = t ++ [d] ∧ d ≠ 0) := by
    rcases hm.2.2.2 with e | ⟨d, t, e, hd⟩
    · exact ⟨_, e, .inl rfl⟩
    · exact ⟨_, e, .inr ⟨d, t, rfl, hd⟩⟩
  have hfg : f = g := by
    unfold Literal.fracDigits at hmag
    rw [hlf, hmg, hi, add_left_cancel_iff, Option.getD_some, Option.getD_some,
      div_eq_div_iff (ten_pow_ne _) (ten_pow_ne _)] at hmag
    exact frac_digits_inj hf hg (by exact_mod_cast hmag)
  obtain ⟨a, b, c⟩ := l
  obtain ⟨a', b', c'⟩ := m
  simp only at hs hint hlf hmg
  rw [hs, hint, hlf, hmg, hfg]

example (m : Literal) (hm : m.Canonical) (h : m.denote = -25 / 2) :
    m = ⟨some true, [1, 2], some [5]⟩ := by
  have h1 : natOf [1, 2] = 12 := by decide
  have h2 : natOf [5] = 5 := by decide
  refine C28_canonical_unique hm ⟨by simp, fun _ => ?_, .inr ⟨1, [2], rfl, by decide⟩,
    .inr ⟨5, [], rfl, by decide⟩⟩ ?_
  · simp only [Literal.magnitude, Literal.fracDigits, Option.getD_some, h1, h2]
    norm_num
  · rw [h]
    simp only [Literal.denote, Literal.magnitude, Literal.fracDigits, Option.getD_some, h1, h2]
    norm_num

example : (FP.display debugCfg (⟨-1⟩ : FP .i64 9) : Res Empty _) = .ok "-0.000000001".toList ∧
    (FP.display debugCfg (⟨0⟩ : FP .i64 9) : Res Empty _) = .ok "0.0".toList ∧
    (FP.display debugCfg (⟨10500000000⟩ : FP .i64 9) : Res Empty _) = .ok "10.5".toList ∧
    (FP.display debugCfg (⟨-9223372036854775808⟩ : FP .i64 9) : Res Empty _) =
      .ok "-9223372036.854775808".toList ∧
    (FP.display debugCfg (⟨-42⟩ : FP .i64 0) : Res Empty _) = .ok "-42.0".toList := by
  decide +kernel
example : Valid debugCfg .i64 9 ∧ |(-1 : BitVec 64).toInt.tmod (10 ^ 9)| + 10 ^ 9 ≤ rawMax .i64 := by
  decide
example : value (⟨-42⟩ : FP .i64 0) ≠ minValue .i64 0 ∧
    |value (⟨-42⟩ : FP .i64 0)| < 10 ^ (if debugCfg.i128 = true then 38 else 18) := by
  rw [value_eq _ (-42) (by decide)]
  unfold minValue rawMin debugCfg
  norm_num [Layout.bits]

/-- Outside C28: `i128` with 38 digits; the sum `fractional + COEF` overflows.  0.9 is printed as
0.1502… in a build without overflow checks. -/
theorem C28_outside_domain :
    (FP.display debugCfg (⟨90000000000000000000000000000000000000⟩ : FP .i128 38) :
      Res Empty _) = .panic ∧
    (FP.display releaseCfg (⟨90000000000000000000000000000000000000⟩ : FP .i128 38) :
      Res Empty _) = .ok "0.150282366920938463463374607431768211456".toList ∧
    (FP.display debugCfg (⟨-9223372036854775808⟩ : FP .i64 0) : Res Empty _) = .panic ∧
    (FP.display releaseCfg (⟨-9223372036854775808⟩ : FP .i64 0) : Res Empty _) =
      .ok "--9223372036854775808.0".toList := by
  decide +kernel

/-! ## C29: no write outside the buffer -/

/-- C29 (partial: the precision is at least 1 and the type is not `i128` with 38 digits). -/
theorem C29_display_no_ub_partial {cfg : Cfg} (hv : Valid cfg L P) (hP : 1 ≤ P)
    (hL : ¬ (L = .i128 ∧ P = 38)) (x : FP L P) :
    (FP.display cfg x : Res ε (List Char)) ≠ .fault .ub := by
  obtain ⟨l, e, -⟩ := C28_display_types (ε := ε) hv hP hL x
  rw [e]; simp

example := C29_display_no_ub_partial (ε := Unit) (cfg := releaseCfg) (by decide) (by decide)
  (by decide) (FP.min : FP .i64 9)

/-- C29 (partial: `i128` with 38 digits, the fraction and the coefficient do not overflow). -/
theorem C29_display_no_ub_fraction_partial {cfg : Cfg} (hv : Valid cfg L P) (hP : 1 ≤ P)
    (x : FP L P) (h : |x.inner.toInt.tmod (10 ^ P)| + 10 ^ P ≤ rawMax L) :
    (FP.display cfg x : Res ε (List Char)) ≠ .fault .ub := by
  obtain ⟨l, e, -⟩ := C28_display (ε := ε) hv hP x (.inr h)
  rw [e]; simp

example := C29_display_no_ub_fraction_partial (ε := Unit) (cfg := releaseCfg) (by decide) (by decide)
  (⟨-70000000000000000000000000000000000000⟩ : FP .i128 38) (by decide +kernel)

/-- C29 (partial: precision 0, not `MIN`, and not a negative number filling the buffer). -/
theorem C29_display_no_ub_zero_precision_partial {cfg : Cfg} (hv : Valid cfg L 0) (x : FP L 0)
    (hm : value x ≠ minValue L 0)
    (hb : 0 ≤ value x ∨ |value x| < 10 ^ (if cfg.i128 = true then 38 else 18)) :
    (FP.display cfg x : Res ε (List Char)) ≠ .fault .ub := by
  obtain ⟨l, e, -⟩ := C28_display_zero_precision (ε := ε) hv x hm hb
  rw [e]; simp

example := C29_display_no_ub_zero_precision_partial (ε := Unit) (cfg := releaseCfg) (by decide)
  (⟨-42⟩ : FP .i64 0) (by decide +kernel) (.inr (by decide +kernel))

/-- C29 is false: a write outside the buffer happens in a build without debug assertions, for
`i64` with precision 0 when the feature `i128` is off, for `i128` with precision 0, and for `i128`
with precision 38. -/
theorem C29_display_no_ub_false :
    (FP.display ⟨false, false, true, false⟩ (⟨-1000000000000000000⟩ : FP .i64 0) : Res Empty _) =
      .fault .ub ∧
    (FP.display releaseCfg (⟨-100000000000000000000000000000000000000⟩ : FP .i128 0) :
      Res Empty _) = .fault .ub ∧
    (FP.display releaseCfg (⟨-90000000000000000000000000000000000000⟩ : FP .i128 38) :
      Res Empty _) = .fault .ub := by
  decide +kernel

/-! With debug assertions nothing is ever written outside the buffer. -/

/-- The outcome is not undefined behaviour. -/
def NoUB {α : Type} (r : Res ε α) : Prop := r ≠ .fault .ub

theorem NoUB.bind {α β : Type} {r : Res ε α} {f : α → Res ε β} (h : NoUB r)
    (hf : ∀ a, NoUB (f a)) : NoUB (r >>= f) := by
  cases r with
  | ok a => exact hf a
  | err e => exact fun h => by cases h
  | fault k =>
    intro h'
    apply h
    change (Res.fault k : Res ε β) = _ at h'
    injection h' with h'
    rw [h']

theorem NoUB.arith {cfg : Cfg} {w : Nat} {z : Int} :
    NoUB (SInt.arith cfg w z : Res ε (BitVec w)) := by
  unfold SInt.arith NoUB
  split <;> (try split) <;> simp [Res.panic]

theorem NoUB.push {cfg : Cfg} (hd : cfg.debugAssertions = true) (b : StrBuf) (c : Char) :
    NoUB (b.push cfg c : Res ε StrBuf) := by
  unfold StrBuf.push debugAssert NoUB
  by_cases h : b.length < strBufMaxLen cfg
  · rw [decide_eq_true h, if_pos h]; simp
  · rw [decide_eq_false h, hd]
    simp [Res.panic]

theorem NoUB.pushStr {cfg : Cfg} (hd : cfg.debugAssertions = true) (b : StrBuf) (s : List Char) :
    NoUB (b.pushStr cfg s : Res ε StrBuf) := by
  unfold StrBuf.pushStr debugAssert NoUB
  by_cases h : b.length + s.length ≤ strBufMaxLen cfg
  · rw [decide_eq_true h, if_pos h]; simp
  · rw [decide_eq_false h, hd]
    simp [Res.panic]

/-- C29 with debug assertions: for every type and value. -/
theorem C29_display_no_ub_debug {cfg : Cfg} (hv : Valid cfg L P) (hd : cfg.debugAssertions = true)
    (x : FP L P) : (FP.display cfg x : Res ε (List Char)) ≠ .fault .ub := by
  have hdiv : ∀ a b : BitVec L.bits, NoUB (SInt.div a b : Res ε _) := by
    intro a b; unfold SInt.div NoUB
    split <;> (try split) <;> simp [Res.panic]
  have hrem : ∀ a b : BitVec L.bits, NoUB (SInt.rem a b : Res ε _) := by
    intro a b; unfold SInt.rem NoUB
    split <;> (try split) <;> simp [Res.panic]
  have hok : ∀ {α : Type} (a : α), NoUB (.ok a : Res ε α) := fun a => by simp [NoUB]
  show NoUB _
  unfold FP.display FP.stringify
  rw [coef_spec hv, ok_bind]
  dsimp only
  have hfrac : ∀ c f b, NoUB (FP.stringifyFrac (L := L) cfg c f b : Res ε _) := by
    intro c f b
    unfold FP.stringifyFrac
    split
    · exact NoUB.bind NoUB.arith fun o => NoUB.pushStr hd _ _
    · exact NoUB.push hd _ _
  split
  · exact NoUB.bind (NoUB.push hd _ _) fun b => NoUB.bind (hdiv _ _) fun q =>
      NoUB.bind NoUB.arith fun i => NoUB.bind (hrem _ _) fun r => NoUB.bind NoUB.arith fun f =>
      NoUB.bind (NoUB.pushStr hd _ _) fun b => NoUB.bind (NoUB.push hd _ _) fun b => hfrac _ _ _
  · exact NoUB.bind (hok _) fun b => NoUB.bind (hdiv _ _) fun q =>
      NoUB.bind NoUB.arith fun i => NoUB.bind (hrem _ _) fun r => NoUB.bind NoUB.arith fun f =>
      NoUB.bind (NoUB.pushStr hd _ _) fun b => NoUB.bind (NoUB.push hd _ _) fun b => hfrac _ _ _

example := C29_display_no_ub_debug (ε := Unit) (cfg := debugCfg) (by decide) rfl (FP.min : FP .i64 9)

example : Valid releaseCfg .i64 9 ∧ 1 ≤ 9 ∧ ¬ (Layout.i64 = .i128 ∧ 9 = 38) := by decide
example : (FP.display debugCfg (⟨-90000000000000000000000000000000000000⟩ : FP .i128 38) :
    Res Empty _) = .panic := by decide +kernel

/-! ## C30: round trip -/

/-- C30: printing succeeds, and both parsers read the printed text as the value printed. -/
theorem C30_round_trip {cfg : Cfg} (hv : Valid cfg L P) (hP : 1 ≤ P) (x : FP L P)
    (h : x.inner.toInt.tmod (10 ^ P) = 0 ∨ |x.inner.toInt.tmod (10 ^ P)| + 10 ^ P ≤ rawMax L) :
    ∃ s, (FP.display cfg x : Res ε (List Char)) = .ok s ∧
      FP.fromStr cfg s = .ok x ∧ FP.fromStrExact cfg s = .ok x := by
  obtain ⟨l, h1, h2, h3, h4⟩ := C28_display (ε := ε) hv hP x h
  have hex : FP.fromStrExact cfg l.text = .ok x := by
    rw [C31_from_str_exact_iff hv]
    refine ⟨l, ⟨⟨?_, ?_⟩, [], [], by simp, by simp, by simp⟩, h4, h3⟩
    · rcases h2.2.2.1 with e | ⟨d, t, e, -⟩ <;> rw [e] <;> simp
    · rcases h2.2.2.2 with e | ⟨d, t, e, -⟩ <;> rw [e] <;> simp
  exact ⟨_, h1, C33_from_str_extends_exact hv _ _ hex, hex⟩

example := C30_round_trip (ε := Unit) (cfg := debugCfg) (by decide) (by decide) (⟨-1⟩ : FP .i64 9)
  (.inr (by decide))

/-- C30 for every type other than `i128` with 38 digits. -/
theorem C30_round_trip_types {cfg : Cfg} (hv : Valid cfg L P) (hP : 1 ≤ P)
    (hL : ¬ (L = .i128 ∧ P = 38)) (x : FP L P) :
    ∃ s, (FP.display cfg x : Res ε (List Char)) = .ok s ∧
      FP.fromStr cfg s = .ok x ∧ FP.fromStrExact cfg s = .ok x :=
  C30_round_trip hv hP x (.inr (fraction_small hv hL _))

example := C30_round_trip_types (ε := Unit) (cfg := debugCfg) (by decide) (by decide) (by decide)
  (FP.min : FP .i128 18)

/-- C30: in particular two values with the same printed text are equal. -/
theorem C30_display_injective {cfg : Cfg} (hv : Valid cfg L P) (hP : 1 ≤ P)
    (hL : ¬ (L = .i128 ∧ P = 38)) (x y : FP L P)
    (h : (FP.display cfg x : Res ε (List Char)) = FP.display cfg y) : x = y := by
  obtain ⟨s, h1, h2, -⟩ := C30_round_trip_types (ε := ε) hv hP hL x
  obtain ⟨t, h3, h4, -⟩ := C30_round_trip_types (ε := ε) hv hP hL y
  rw [h1, h3] at h
  cases h
  rw [h2] at h4
  cases h4
  rfl

example := C30_display_injective (ε := Unit) (cfg := debugCfg) (by decide) (by decide) (by decide)
  (⟨-10 - 5⟩ : FP .i64 9) ⟨-15⟩ (by decide +kernel)

/-- Outside C30: at precision 0 the printed text is rejected by both parsers. -/
theorem C30_outside_domain :
    (FP.display debugCfg (⟨42⟩ : FP .i64 0) : Res Empty _) = .ok "42.0".toList ∧
    (FP.fromStr debugCfg "42.0".toList : Res ConvErr (FP .i64 0)) =
      .err ⟨"can't parse fractional part"⟩ ∧
    (FP.fromStrExact debugCfg "42.0".toList : Res ConvErr (FP .i64 0)) =
      .err ⟨"requested precision is too high"⟩ := by decide +kernel

example : (FP.display debugCfg (⟨-170141183460469231731687303715884105728⟩ : FP .i128 18) :
      Res Empty _) = .ok "-170141183460469231731.687303715884105728".toList ∧
    (FP.fromStr debugCfg "-170141183460469231731.687303715884105728".toList :
      Res ConvErr (FP .i128 18)) = .ok ⟨-170141183460469231731687303715884105728⟩ := by
  decide +kernel

end Fixnum
