import Verif.DisplayExact
import Verif.Props.Text

/-!
# Properties C28 and C29 for every number of every type

The outcome of `Display` is determined in every build: `C28_display_any` where nothing overflows,
`C28_display_panics` where something does and overflow is checked, `C28_display_min_wrapped` and
`C28_display_fraction_wrapped` where it is not.  `C29_display_ub_iff` follows.
-/

namespace Fixnum

open Res Spec

variable {L : Layout} {P : Nat} {ε : Type}

/-- Something overflows while printing: the magnitude of `MIN` at precision 0, or one more than the
fractional part is out of range (`i128` with 38 digits only). -/
def PrintOverflows (x : FP L P) : Prop :=
  (P = 0 ∧ value x = minValue L P) ∨ maxValue L P < Int.fract |value x| + 1

theorem abs_value (x : FP L P) : |value x| = (x.inner.toInt.natAbs : ℚ) / (10 ^ P : Nat) := by
  unfold value
  rw [abs_div, abs_of_pos (ten_pow_pos P), Nat.cast_natAbs, Int.cast_abs]
  push_cast; rfl

theorem fract_abs_value (x : FP L P) :
    Int.fract |value x| = ((x.inner.toInt.natAbs % 10 ^ P : Nat) : ℚ) / 10 ^ P := by
  rw [abs_value, Int.fract_div_natCast_eq_div_natCast_mod]
  push_cast; rfl

theorem fraction_overflow_iff (x : FP L P) : maxValue L P < Int.fract |value x| + 1 ↔
    rawMax L < ((x.inner.toInt.natAbs % 10 ^ P : Nat) : Int) + 10 ^ P := by
  rw [fract_abs_value]
  unfold maxValue
  have hp := ten_pow_pos P
  rw [div_lt_iff₀ hp, add_mul, div_mul_cancel₀ _ (ten_pow_ne P), one_mul]
  generalize x.inner.toInt.natAbs % 10 ^ P = f
  rw [← Int.cast_lt (R := ℚ)]
  push_cast
  rfl

theorem value_min_iff (x : FP L P) : value x = minValue L P ↔ x.inner.toInt = rawMin L := by
  unfold value minValue
  rw [div_left_inj' (ten_pow_ne P)]
  exact_mod_cast Iff.rfl

/-- Only `i128` with 38 digits, or precision 0, is affected. -/
theorem C28_overflow_types {cfg : Cfg} (hv : Valid cfg L P) (x : FP L P) (h : PrintOverflows x) :
    (P = 0 ∧ value x = minValue L P) ∨ (L = .i128 ∧ P = 38) := by
  rcases h with h | h
  · exact .inl h
  · right
    by_contra hL
    rw [fraction_overflow_iff, ← natAbs_tmod_pow] at h
    have := fraction_small hv hL x.inner.toInt
    omega

example := C28_overflow_types (cfg := debugCfg) (by decide) (FP.min : FP .i64 0)
  (by rw [PrintOverflows, fraction_overflow_iff, value_min_iff]; decide +kernel)

/-- C28 for every number for which nothing overflows: the canonical literal of the exact value is
written to the buffer. -/
theorem C28_display_any {cfg : Cfg} (hv : Valid cfg L P) (x : FP L P) (h : ¬ PrintOverflows x) :
    ∃ l : Literal, l.Canonical ∧ l.denote = value x ∧
      (FP.display cfg x : Res ε (List Char)) = inBuffer cfg l.text := by
  unfold PrintOverflows at h
  rw [not_or, fraction_overflow_iff, value_min_iff] at h
  obtain ⟨id, fd, h1, h2, h3, -, h5, h6⟩ := display_text (ε := ε) hv x (fun hP hm => h.1 ⟨hP, hm⟩)
    (.inr (not_lt.1 h.2))
  obtain ⟨c1, c2⟩ := litOf_spec h1 h2 h3 h5
  exact ⟨_, c1, c2, h6⟩

example := C28_display_any (ε := Unit) (cfg := debugCfg) (by decide) (⟨-1500⟩ : FP .i64 3)
  (by rw [PrintOverflows, fraction_overflow_iff, value_min_iff]; decide +kernel)

/-- C28: with overflow checks printing panics exactly where something overflows or the text is longer
than the buffer; here the first. -/
theorem C28_display_panics {cfg : Cfg} (hv : Valid cfg L P) (ho : cfg.overflowChecks = true)
    (x : FP L P) (h : PrintOverflows x) : (FP.display cfg x : Res ε (List Char)) = .panic := by
  by_cases hm : P = 0 ∧ x.inner.toInt = rawMin L
  · obtain ⟨h0, hm⟩ := hm
    subst h0
    rw [display_eq hv, hm]
    have e : |(rawMin L).tdiv (10 ^ 0)| = half L := by
      rw [pow_zero, Int.tdiv_one, rawMin_half, abs_neg, abs_of_pos]
      have := half_pos L; omega
    rw [e, SInt.arith_panic cfg (by rw [fits_half]; omega) ho]
    rfl
  · have hf : maxValue L P < Int.fract |value x| + 1 := by
      rcases h with h | h
      · exact absurd ⟨h.1, (value_min_iff x).1 h.2⟩ hm
      · exact h
    obtain ⟨hL, hP⟩ := (C28_overflow_types hv x h).resolve_left
      (fun hc => hm ⟨hc.1, (value_min_iff x).1 hc.2⟩)
    rw [fraction_overflow_iff] at hf
    obtain ⟨id, hid1, hid2, hid3⟩ := display_head (ε := ε) hv x (fun hP hc => hm ⟨hP, hc⟩)
    have hlen : id.length ≤ 1 := by
      refine length_le_of_natOf hid1 hid2 (k := 1) (by norm_num) ?_
      have hfx := (fits_half L _).1 (toInt_fits x.inner)
      have hh : half L = 2 ^ 127 := by rw [hL]; rfl
      rw [hh] at hfx
      norm_num at hfx
      rw [Nat.div_lt_iff_lt_mul (by positivity)]
      generalize x.inner.toInt = r at *
      rw [hP]
      norm_num
      omega
    have e : (inBuffer cfg (signOf x.inner.toInt ++ id.map digit ++ ['.']) : Res ε (List Char)) =
        .ok (signOf x.inner.toInt ++ id.map digit ++ ['.']) := by
      refine if_pos ?_
      rw [List.length_append, List.length_append, List.length_map, List.length_singleton]
      have : (signOf x.inner.toInt).length ≤ 1 := by unfold signOf; split <;> simp
      split <;> omega
    rw [hid3, e, ok_bind, stringifyFrac_panics hv ho (Nat.mod_lt _ (by positivity)) hf]

example := C28_display_panics (ε := Unit) (cfg := debugCfg) (by decide) rfl (FP.min : FP .i64 0)
  (by rw [PrintOverflows, fraction_overflow_iff, value_min_iff]; decide +kernel)

/-- `MIN` at precision 0, in digits. -/
theorem display_min {cfg : Cfg} (hv : Valid cfg L P) (ho : cfg.overflowChecks = false)
    (hP : P = 0) (x : FP L P) (hm : x.inner.toInt = rawMin L) :
    ∃ id fd : List (Fin 10), (id = [0] ∨ ∃ d t, id = d :: t ∧ d ≠ 0) ∧
      (fd = [0] ∨ ∃ d u, fd = u ++ [d] ∧ d ≠ 0) ∧ natOf id = x.inner.toInt.natAbs ∧
      fd.length ≤ 1 ∧ (natOf fd : ℚ) / 10 ^ fd.length = 0 ∧
      (FP.display cfg x : Res ε (List Char)) =
        inBuffer cfg ('-' :: (litOf x.inner.toInt id fd).text) := by
  subst hP
  have hw := bits_pos L
  have hh := half_pos L
  obtain ⟨id, hid1, hid2, hid3⟩ := itoaNat_spec (half L).natAbs
  obtain ⟨fd, hfd1, hfd2, hfd3, hfd4⟩ := stringifyFrac_fits (ε := ε) (f := 0) hv (by norm_num)
    (.inl rfl)
  have hneg : x.inner.toInt < 0 := by rw [hm, rawMin_half]; omega
  have hna : x.inner.toInt.natAbs = (half L).natAbs := by rw [hm, rawMin_half, Int.natAbs_neg]
  refine ⟨id, fd, hid3, hfd1, by rw [hid2, hna], by simpa using hfd2, by rw [hfd3]; simp, ?_⟩
  have e1 : |x.inner.toInt.tdiv (10 ^ 0)| = half L := by
    rw [pow_zero, Int.tdiv_one, hm, rawMin_half, abs_neg, abs_of_pos (by omega)]
  have e2 : |x.inner.toInt.tmod (10 ^ 0)| = ((0 : Nat) : Int) := by
    rw [pow_zero, Int.tmod_one]; rfl
  have e3 : (BitVec.ofInt L.bits (half L)).toInt = -half L := by
    rw [BitVec.toInt_ofInt]
    cases L <;> decide +kernel
  have e4 : itoa (-half L) = '-' :: id.map digit := by
    unfold itoa
    rw [if_pos (by omega), Int.natAbs_neg, hid1]
  rw [display_eq hv, e1, e2, SInt.arith_wrap cfg ho, ok_bind, e3, e4, litOf_text]
  have e5 : signOf x.inner.toInt = ['-'] := if_pos hneg
  rw [e5]
  have e6 : '-' :: (['-'] ++ id.map digit ++ ['.'] ++ fd.map digit) =
      (['-'] ++ '-' :: id.map digit ++ ['.']) ++ fd.map digit := by simp
  rw [e6, ← inBuffer_bind cfg _ (fd.map digit)]
  congr 1
  funext b
  rw [hfd4]

/-- C28 without overflow checks, `MIN` at precision 0: the minus sign is written twice. -/
theorem C28_display_min_wrapped {cfg : Cfg} (hv : Valid cfg L P) (ho : cfg.overflowChecks = false)
    (hP : P = 0) (x : FP L P) (hm : value x = minValue L P) :
    ∃ l : Literal, l.Canonical ∧ l.denote = value x ∧
      (FP.display cfg x : Res ε (List Char)) = inBuffer cfg ('-' :: l.text) := by
  obtain ⟨id, fd, h1, h2, h3, -, h5, h6⟩ := display_min (ε := ε) hv ho hP x ((value_min_iff x).1 hm)
  obtain ⟨c1, c2⟩ := litOf_spec (P := 0) (r := x.inner.toInt) h1 h2 (by rw [h3]; simp)
    (by rw [h5]; simp [Nat.mod_one])
  refine ⟨_, c1, ?_, h6⟩
  rw [c2]; unfold value; subst hP; rfl

example := C28_display_min_wrapped (ε := Unit) (cfg := releaseCfg) (by decide) rfl rfl
  (FP.min : FP .i64 0) (by decide +kernel)

/-- `i128` with 38 digits and a fraction that overflows, in digits. -/
theorem display_wrapped {cfg : Cfg} (hv : Valid cfg L P) (ho : cfg.overflowChecks = false)
    (hL : L = .i128) (hP : P = 38) (x : FP L P)
    (h : rawMax L < ((x.inner.toInt.natAbs % 10 ^ P : Nat) : Int) + 10 ^ P) :
    ∃ (id fd : List (Fin 10)) (k : Nat), (id = [0] ∨ ∃ d t, id = d :: t ∧ d ≠ 0) ∧
      natOf id = x.inner.toInt.natAbs / 10 ^ P ∧ (∃ d u, fd = u ++ [d] ∧ d ≠ 0) ∧
      fd.length + k = 39 ∧
      natOf fd * 10 ^ k = 2 ^ 128 - 10 ^ 38 - x.inner.toInt.natAbs % 10 ^ P ∧
      (FP.display cfg x : Res ε (List Char)) = inBuffer cfg (litOf x.inner.toInt id fd).text := by
  subst hP
  obtain ⟨id, hid1, hid2, hid3⟩ := display_head (ε := ε) hv x (by norm_num)
  have hflt : x.inner.toInt.natAbs % 10 ^ 38 < 10 ^ 38 := Nat.mod_lt _ (by positivity)
  obtain ⟨fd, k, hf1, hf2, hf3, hf4⟩ := stringifyFrac_wraps (ε := ε) ho hL hflt h
  refine ⟨id, fd, k, hid1, hid2, hf1, hf2, hf3, ?_⟩
  rw [hid3, litOf_text, ← inBuffer_bind cfg _ (fd.map digit)]
  congr 1
  funext b
  rw [hf4]

theorem fraction_overflow_types {cfg : Cfg} (hv : Valid cfg L P) (x : FP L P)
    (h : maxValue L P < Int.fract |value x| + 1) : L = .i128 ∧ P = 38 := by
  by_contra hL
  rw [fraction_overflow_iff, ← natAbs_tmod_pow] at h
  have := fraction_small hv hL x.inner.toInt
  omega

/-- C28 without overflow checks, `i128` with 38 digits and a fraction that overflows: the digits
after the point are those of `2^128 - 10^38 - f`, where `f` are the correct digits, without trailing
zeros. -/
theorem C28_display_fraction_wrapped {cfg : Cfg} (hv : Valid cfg L P)
    (ho : cfg.overflowChecks = false) (x : FP L P) (h : maxValue L P < Int.fract |value x| + 1) :
    ∃ (l : Literal) (k : Nat), (l.sign = if value x < 0 then some true else none) ∧
      (l.int = [0] ∨ ∃ d ds, l.int = d :: ds ∧ d ≠ 0) ∧ (natOf l.int : Int) = ⌊|value x|⌋ ∧
      (∃ d ds, l.frac = some (ds ++ [d]) ∧ d ≠ 0) ∧ l.fracDigits.length + k = 39 ∧
      ((natOf l.fracDigits * 10 ^ k : Nat) : ℚ) =
        2 ^ 128 - 10 ^ 38 - Int.fract |value x| * 10 ^ 38 ∧
      (FP.display cfg x : Res ε (List Char)) = inBuffer cfg l.text := by
  obtain ⟨hL, hP⟩ := fraction_overflow_types hv x h
  rw [fraction_overflow_iff] at h
  subst hP
  obtain ⟨id, fd, k, hid1, hid2, hf1, hf2, hf3, hf4⟩ := display_wrapped (ε := ε) hv ho hL rfl x h
  have hflt : x.inner.toInt.natAbs % 10 ^ 38 < 10 ^ 38 := Nat.mod_lt _ (by positivity)
  refine ⟨litOf x.inner.toInt id fd, k, ?_, hid1, ?_, ?_, hf2, ?_, hf4⟩
  · have : value x < 0 ↔ x.inner.toInt < 0 := by
      unfold value
      rw [div_lt_iff₀ (ten_pow_pos 38), zero_mul]
      exact_mod_cast Iff.rfl
    simp only [this]; rfl
  · rw [abs_value, Rat.floor_natCast_div_natCast]
    show ((natOf id : Nat) : Int) = _
    rw [hid2]; push_cast; rfl
  · obtain ⟨d, u, h1, h2⟩ := hf1
    exact ⟨d, u, by rw [← h1]; rfl, h2⟩
  · show ((natOf fd * 10 ^ k : Nat) : ℚ) = _
    rw [hf3, fract_abs_value, div_mul_cancel₀ _ (ten_pow_ne 38), Nat.cast_sub, Nat.cast_sub]
    · push_cast; rfl
    · norm_num
    · exact le_trans hflt.le (by norm_num)

example := C28_display_fraction_wrapped (ε := Unit) (cfg := releaseCfg) (by decide) rfl
  (⟨90000000000000000000000000000000000000⟩ : FP .i128 38) ((fraction_overflow_iff _).2 (by decide))

example : PrintOverflows (⟨-9223372036854775808⟩ : FP .i64 0) ∧
    PrintOverflows (⟨90000000000000000000000000000000000000⟩ : FP .i128 38) ∧
    ¬ PrintOverflows (⟨10000000000000000000000000000000000000⟩ : FP .i128 38) := by
  refine ⟨.inl ⟨rfl, (value_min_iff _).2 (by decide)⟩, .inr ((fraction_overflow_iff _).2
    (by decide)), ?_⟩
  rintro (h | h)
  · exact absurd h.1 (by decide)
  · exact absurd ((fraction_overflow_iff _).1 h) (by decide)

/-! ## C29 -/

theorem inBuffer_ub_iff {cfg : Cfg} (hd : cfg.debugAssertions = false) (t : List Char) :
    (inBuffer cfg t : Res ε (List Char)) = .fault .ub ↔
      (if cfg.i128 = true then 41 else 21) < t.length := by
  unfold inBuffer
  rw [hd]
  by_cases h : t.length ≤ (if cfg.i128 = true then 41 else 21)
  · rw [if_pos h]
    constructor
    · intro h; cases h
    · intro h'; omega
  · rw [if_neg h]
    simp at h ⊢
    exact h

/-- C29, exactly: in a build without debug assertions `Display` writes outside its buffer for these
numbers and no others. -/
theorem C29_display_ub_iff {cfg : Cfg} (hv : Valid cfg L P) (hd : cfg.debugAssertions = false)
    (x : FP L P) :
    (FP.display cfg x : Res ε (List Char)) = .fault .ub ↔
      (P = 0 ∧ ((L = .i64 ∧ cfg.i128 = false ∧ value x ≤ -10 ^ 18) ∨
          (L = .i128 ∧ value x ≤ -10 ^ 38)) ∧
        (value x = minValue L P → cfg.overflowChecks = false)) ∨
      (L = .i128 ∧ P = 38 ∧ cfg.overflowChecks = false ∧ value x < 0 ∧
        maxValue L P < Int.fract |value x| + 1 ∧ x.inner.toInt.natAbs % 10 ≠ 6) := by
  have hh0 := half_pos L
  have hfx := (fits_half L _).1 (toInt_fits x.inner)
  have hneg : value x < 0 ↔ x.inner.toInt < 0 := by
    unfold value
    rw [div_lt_iff₀ (ten_pow_pos P), zero_mul]
    exact_mod_cast Iff.rfl
  by_cases hP0 : P = 0
  · subst hP0
    have hval : value x = (x.inner.toInt : ℚ) := by unfold value; simp
    have hR : ((0 = 0 ∧ ((L = .i64 ∧ cfg.i128 = false ∧ value x ≤ -10 ^ 18) ∨
          (L = .i128 ∧ value x ≤ -10 ^ 38)) ∧
        (value x = minValue L 0 → cfg.overflowChecks = false)) ∨
      (L = .i128 ∧ 0 = 38 ∧ cfg.overflowChecks = false ∧ value x < 0 ∧
        maxValue L 0 < Int.fract |value x| + 1 ∧ x.inner.toInt.natAbs % 10 ≠ 6)) ↔
        ((L = .i64 ∧ cfg.i128 = false ∧ x.inner.toInt ≤ -10 ^ 18) ∨
          (L = .i128 ∧ x.inner.toInt ≤ -10 ^ 38)) ∧
        (x.inner.toInt = rawMin L → cfg.overflowChecks = false) := by
      rw [value_min_iff, hval]
      have e1 : ((x.inner.toInt : ℚ) ≤ -10 ^ 18) ↔ x.inner.toInt ≤ -10 ^ 18 := by
        exact_mod_cast Iff.rfl
      have e2 : ((x.inner.toInt : ℚ) ≤ -10 ^ 38) ↔ x.inner.toInt ≤ -10 ^ 38 := by
        exact_mod_cast Iff.rfl
      rw [e1, e2]
      simp
    rw [hR]
    generalize hr : x.inner.toInt = r at *
    have hlen : ∀ id : List (Fin 10), (id = [0] ∨ ∃ d t, id = d :: t ∧ d ≠ 0) →
        natOf id = r.natAbs → ∀ k, 1 ≤ k → (k < id.length ↔ 10 ^ k ≤ r.natAbs) := by
      intro id h1 h2 k hk
      constructor
      · intro h
        by_contra hc
        have := length_le_of_natOf h1 h2 hk (not_le.1 hc)
        omega
      · intro h
        have := natOf_lt id
        rw [h2] at this
        exact (pow_lt_pow_iff_right₀ (by norm_num : 1 < 10)).1 (lt_of_le_of_lt h this)
    have hf1 : ∀ fd : List (Fin 10), (fd = [0] ∨ ∃ d u, fd = u ++ [d] ∧ d ≠ 0) →
        fd.length ≤ 1 → fd.length = 1 := by
      rintro fd (rfl | ⟨d, u, rfl, -⟩) h
      · rfl
      · rw [List.length_append, List.length_singleton] at h ⊢; omega
    by_cases hm : r = rawMin L
    · cases ho : cfg.overflowChecks
      · obtain ⟨id, fd, h1, h2, h3, h4, -, h6⟩ := display_min (ε := ε) hv ho rfl x
          (by rw [hr, hm])
        rw [hr] at h3 h6
        have hl := hf1 fd h2 h4
        have l10 := hlen id h1 h3 10 (by norm_num)
        have l18 := hlen id h1 h3 18 (by norm_num)
        have l19 := hlen id h1 h3 19 (by norm_num)
        have l38 := hlen id h1 h3 38 (by norm_num)
        rw [h6, inBuffer_ub_iff hd, List.length_cons, litOf_length, hl]
        generalize id.length = n at *
        rw [rawMin_half] at hm
        have hi := hv.2
        clear h6 hf1 hlen hR hval hneg h2 hv
        cases hc : cfg.i128 <;> cases L <;> first
          | exact absurd (hi rfl) (by rw [hc]; exact Bool.false_ne_true)
          | (simp only [half, Layout.bits, reduceCtorEq, false_and, true_and, false_or, or_false]
               at hm ⊢
             norm_num at hm l10 l18 l19 l38 ⊢
             split <;> omega)
      · have hp : PrintOverflows x := .inl ⟨rfl, (value_min_iff x).2 (by rw [hr, hm])⟩
        rw [C28_display_panics hv ho x hp]
        simp [hm, Res.panic]
    · have hX := display_text (ε := ε) hv x (fun _ => by rw [hr]; exact hm)
        (.inl (by rw [pow_zero, Nat.mod_one]))
      obtain ⟨id, fd, h1, h2, h3, h4, -, h6⟩ := hX
      rw [hr] at h3 h6
      rw [pow_zero, Nat.div_one] at h3
      have hl := hf1 fd h2 (by simpa using h4)
      have l10 := hlen id h1 h3 10 (by norm_num)
      have l18 := hlen id h1 h3 18 (by norm_num)
      have l19 := hlen id h1 h3 19 (by norm_num)
      have l38 := hlen id h1 h3 38 (by norm_num)
      have l39 := hlen id h1 h3 39 (by norm_num)
      rw [h6, inBuffer_ub_iff hd, litOf_length, hl]
      generalize id.length = n at *
      rw [rawMin_half] at hm ⊢
      have hi := hv.2
      clear h6 hf1 hlen hR hval hneg h2 hv
      cases hc : cfg.i128 <;> cases L <;> first
        | exact absurd (hi rfl) (by rw [hc]; exact Bool.false_ne_true)
        | (simp only [half, Layout.bits, reduceCtorEq, false_and, true_and, false_or, or_false]
             at hm hfx ⊢
           norm_num at hm hfx l10 l18 l19 l38 l39 ⊢
           split <;> omega)
  · by_cases hL : L = .i128 ∧ P = 38
    · obtain ⟨hL, hP⟩ := hL
      have hR : ((P = 0 ∧ ((L = .i64 ∧ cfg.i128 = false ∧ value x ≤ -10 ^ 18) ∨
            (L = .i128 ∧ value x ≤ -10 ^ 38)) ∧
          (value x = minValue L P → cfg.overflowChecks = false)) ∨
        (L = .i128 ∧ P = 38 ∧ cfg.overflowChecks = false ∧ value x < 0 ∧
          maxValue L P < Int.fract |value x| + 1 ∧ x.inner.toInt.natAbs % 10 ≠ 6)) ↔
          cfg.overflowChecks = false ∧ x.inner.toInt < 0 ∧
            rawMax L < ((x.inner.toInt.natAbs % 10 ^ P : Nat) : Int) + 10 ^ P ∧
            x.inner.toInt.natAbs % 10 ≠ 6 := by
        rw [hneg, fraction_overflow_iff]
        simp [hL, hP]
      rw [hR]
      by_cases h : rawMax L < ((x.inner.toInt.natAbs % 10 ^ P : Nat) : Int) + 10 ^ P
      · cases ho : cfg.overflowChecks
        · obtain ⟨id, fd, k, hid1, hid2, hf1, hf2, hf3, hf4⟩ :=
            display_wrapped (ε := ε) hv ho hL hP x h
          have hi := hv.2 hL
          rw [hf4, inBuffer_ub_iff hd, litOf_length, if_pos hi]
          have hh : half L = 2 ^ 127 := by rw [hL]; rfl
          have hid : id.length = 1 := by
            have h1 := length_le_of_natOf hid1 hid2 (k := 1) (by norm_num) (by
              rw [Nat.div_lt_iff_lt_mul (by positivity)]
              generalize x.inner.toInt = r at *
              rw [hh] at hfx
              rw [hP]
              norm_num at hfx ⊢
              omega)
            rcases hid1 with e | ⟨d, t, e, -⟩
            · rw [e]; rfl
            · rw [e, List.length_cons] at h1 ⊢; omega
          have hmod : x.inner.toInt.natAbs % 10 ^ P % 10 = x.inner.toInt.natAbs % 10 :=
            Nat.mod_mod_of_dvd _ (dvd_pow_self 10 hP0)
          have hlt : x.inner.toInt.natAbs % 10 ^ P < 10 ^ P := Nat.mod_lt _ (by positivity)
          have hk : k = 0 ↔ x.inner.toInt.natAbs % 10 ≠ 6 := by
            rw [← hmod]
            generalize x.inner.toInt.natAbs % 10 ^ P = f at *
            rw [hP] at hlt
            norm_num at hf3 hlt
            constructor
            · rintro rfl
              obtain ⟨d, u, hfd, hd0⟩ := hf1
              rw [pow_zero, mul_one, hfd, natOf_append] at hf3
              simp only [natOf, List.foldl_cons, List.foldl_nil, List.length_singleton, pow_one]
                at hf3
              have : d.val ≠ 0 := fun h => hd0 (Fin.ext h)
              have := d.2
              omega
            · intro h6
              by_contra hk
              obtain ⟨j, rfl⟩ := Nat.exists_eq_succ_of_ne_zero hk
              rw [pow_succ, ← mul_assoc] at hf3
              omega
          rw [hid, ← hk]
          simp only [h, true_and]
          by_cases hn : x.inner.toInt < 0
          · rw [if_pos hn]; simp only [hn, true_and]; omega
          · rw [if_neg hn]; simp only [hn, false_and, iff_false]; omega
        · rw [C28_display_panics hv ho x (.inr ((fraction_overflow_iff x).2 h))]
          simp [Res.panic]
      · have := C29_display_no_ub_fraction_partial (ε := ε) hv (by omega) x
          (by rw [natAbs_tmod_pow]; exact not_lt.1 h)
        simp only [h, false_and, and_false, iff_false]
        exact this
    · have := C29_display_no_ub_partial (ε := ε) hv (by omega) hL x
      simp only [this, false_iff, not_or]
      refine ⟨fun h => hP0 h.1, fun h => hL ⟨h.1, h.2.1⟩⟩

example := C29_display_ub_iff (ε := Empty) (cfg := releaseCfg) (by decide) rfl
  (⟨-90000000000000000000000000000000000007⟩ : FP .i128 38)

example : (FP.display releaseCfg (⟨-90000000000000000000000000000000000006⟩ : FP .i128 38) :
      Res Empty _) ≠ .fault .ub ∧
    (FP.display releaseCfg (⟨-90000000000000000000000000000000000007⟩ : FP .i128 38) :
      Res Empty _) = .fault .ub ∧
    (FP.display ⟨false, false, true, false⟩ (⟨-999999999999999999⟩ : FP .i64 0) : Res Empty _) =
      .ok "-999999999999999999.0".toList := by decide +kernel

end Fixnum
