import Verif.LiteralBasic
import Verif.Props.Text

/-! # Properties C34 and C35: literals -/

namespace Fixnum

open Res Spec

variable {L : Layout} {P : Nat} {ε : Type}

theorem exact_literal {cfg : Cfg} (hv : Valid cfg L P) {l : Literal} (hl : l.WellFormed)
    {x : FP L P} (h : FP.fromStrExact cfg l.text = .ok x) :
    l.fracDigits.length ≤ P ∧
      Fits L.bits (sgn l.sign * rawMag P (natOf l.int) l.fracDigits) ∧
      x = ⟨BitVec.ofInt _ (sgn l.sign * rawMag P (natOf l.int) l.fracDigits)⟩ := by
  have ht : IsText l.text l := ⟨hl, [], [], by simp, by simp, by simp⟩
  obtain ⟨h1, h2⟩ := parseStr_text (P := P) hv true ht
  unfold FP.fromStrExact at h
  have hlen : ¬ P < l.fracDigits.length := by
    intro hn
    obtain ⟨e, he⟩ := h1 ⟨hn, .inl rfl⟩
    rw [he] at h; cases h
  have h3 := h2 fun h => hlen h.1
  by_cases hf : Fits L.bits (sgn l.sign * rawMag P (natOf l.int) l.fracDigits)
  · rw [h3.1 hf] at h
    cases h
    exact ⟨not_lt.1 hlen, hf, rfl⟩
  · obtain ⟨e, he⟩ := h3.2 hf
    rw [he] at h; cases h

/-! ## C34: the macro agrees with the exact parser -/

/-- C34 in a build of the crate without overflow checks: what exact parsing accepts, the macro
accepts with the same value. -/
theorem C34_macro_agrees_release {cfg : Cfg} (hv : Valid cfg L P)
    (ho : cfg.overflowChecks = false) (l : Literal) (hl : l.WellFormed) (x : FP L P)
    (h : FP.fromStrExact cfg l.text = .ok x) :
    (fixnumConst cfg L P (l.text.map Char.toNat) : Res ε _) = .ok x := by
  obtain ⟨h1, h2, h3⟩ := exact_literal hv hl h
  obtain ⟨y, hy⟩ := fixnumConst_wrap (ε := ε) hv ho hl.1 h1
  rw [show l.text.map Char.toNat = literalBytes l from rfl, hy, fixnumConst_inv hv hl.1 h1 hy, h3]

example := C34_macro_agrees_release (ε := Unit) (cfg := releaseCfg) (L := .i64) (P := 9) (by decide)
  rfl ⟨some true, [0], some [4, 3, 2, 1]⟩ ⟨by simp, by simp⟩ ⟨-432100000⟩ (by decide +kernel)

/-- C34 with overflow checks: the same, unless the evaluation overflows (a compile error). -/
theorem C34_macro_agrees_or_fails {cfg : Cfg} (hv : Valid cfg L P) (l : Literal)
    (hl : l.WellFormed) (x : FP L P) (h : FP.fromStrExact cfg l.text = .ok x) :
    (fixnumConst cfg L P (l.text.map Char.toNat) : Res ε _) = .ok x ∨
      (fixnumConst cfg L P (l.text.map Char.toNat) : Res ε _) = .panic := by
  obtain ⟨h1, h2, h3⟩ := exact_literal hv hl h
  rcases refines_fixnumConst (ε := ε) (L := L) (P := P) cfg (l.text.map Char.toNat) with hp | hp
  · exact .inr hp
  · left
    have hv' : Valid (rel cfg) L P := hv
    obtain ⟨y, hy⟩ := fixnumConst_wrap (ε := ε) hv' rfl hl.1 h1
    rw [hp, show l.text.map Char.toNat = literalBytes l from rfl, hy,
      fixnumConst_inv hv' hl.1 h1 hy, h3]

example := C34_macro_agrees_or_fails (ε := Unit) (cfg := debugCfg) (L := .i64) (P := 9) (by decide)
  ⟨some true, [0], some [4, 3, 2, 1]⟩ ⟨by simp, by simp⟩ ⟨-432100000⟩ (by decide +kernel)

/-- C34 (partial) with overflow checks: it does compile if the literal has not more integral digits
(counting leading zeros) than the largest `Int`, and the value is not `MIN` of a layout as wide as
`Int`. -/
theorem C34_macro_agrees_partial {cfg : Cfg} (hv : Valid cfg L P) (l : Literal)
    (hl : l.WellFormed) (x : FP L P) (h : FP.fromStrExact cfg l.text = .ok x)
    (hd : l.int.length ≤ if cfg.i128 = true then 39 else 19)
    (hm : L.bits < (if cfg.i128 = true then 128 else 64) ∨ value x ≠ minValue L P) :
    (fixnumConst cfg L P (l.text.map Char.toNat) : Res ε _) = .ok x := by
  obtain ⟨h1, h2, h3⟩ := exact_literal hv hl h
  have hmag : 0 ≤ rawMag P (natOf l.int) l.fracDigits := by
    unfold rawMag
    have : (0 : Int) ≤ natOf l.int * 10 ^ P := by positivity
    have : (0 : Int) ≤ 10 ^ (P - l.fracDigits.length) * natOf l.fracDigits := by positivity
    rw [if_pos h1]; omega
  have hle : rawMag P (natOf l.int) l.fracDigits ≤ half L := by
    rw [fits_half] at h2
    rcases sgn_cases l.sign with e | e <;> rw [e] at h2 <;> omega
  have hf : Fits (intBits cfg) (rawMag P (natOf l.int) l.fracDigits) := by
    have hr := rawMax_le hv
    rw [rawMax_half] at hr
    have hp : (0 : Int) < 2 ^ (intBits cfg - 1) := by positivity
    refine ⟨by unfold iMin; linarith, ?_⟩
    rcases hm with hm | hm
    · have hb : (2 : Int) ^ (L.bits - 1) * 2 ≤ 2 ^ (intBits cfg - 1) := by
        rw [← pow_succ]
        refine pow_le_pow_right₀ (by norm_num) ?_
        have : L.bits < intBits cfg := hm
        have := bits_pos L
        omega
      have hh : half L = 2 ^ (L.bits - 1) := rfl
      have := half_pos L
      unfold iMax
      omega
    · by_contra hn
      apply hm
      have e : rawMag P (natOf l.int) l.fracDigits = half L := by omega
      rw [fits_half, e] at h2
      rw [h3, value_ofInt (by rw [e, fits_half]; exact h2), e]
      unfold minValue
      rw [rawMin_half]
      rcases sgn_cases l.sign with e' | e' <;> rw [e'] at h2 ⊢
      · omega
      · rw [neg_one_mul]
  obtain ⟨y, hy⟩ := fixnumConst_fits (ε := ε) hv hl.1 h1 hd hf
  rw [show l.text.map Char.toNat = literalBytes l from rfl, hy, fixnumConst_inv hv hl.1 h1 hy, h3]

example := C34_macro_agrees_partial (ε := Unit) (cfg := debugCfg) (L := .i64) (P := 9) (by decide)
  ⟨some true, [0], some [4, 3, 2, 1]⟩ ⟨by simp, by simp⟩ ⟨-432100000⟩ (by decide +kernel)
  (by decide) (.inl (by decide))

/-- C34 fails with overflow checks for `MIN` and for many leading zeros: compile errors. -/
theorem C34_macro_agrees_false :
    (FP.fromStrExact ⟨true, true, true, false⟩ "-9223372036.854775808".toList :
      Res ConvErr (FP .i64 9)) = .ok ⟨-9223372036854775808⟩ ∧
    (fixnumConst ⟨true, true, true, false⟩ .i64 9
      ("-9223372036.854775808".toList.map Char.toNat) : Res Empty _) = .panic ∧
    (FP.fromStrExact ⟨true, true, true, false⟩ "00000000000000000001".toList :
      Res ConvErr (FP .i64 9)) = .ok ⟨1000000000⟩ ∧
    (fixnumConst ⟨true, true, true, false⟩ .i64 9
      ("00000000000000000001".toList.map Char.toNat) : Res Empty _) = .panic := by
  decide +kernel

theorem approx_pow {cfg : Cfg} (ho : cfg.overflowChecks = true) {k : Nat}
    {v : BitVec (intBits cfg)} (h : (pow10 cfg k : Res ε _) = .ok v) : v.toInt = 10 ^ k :=
  (pow10_approx h).2 ho

/-- What is known when the macro compiles: the text is a literal; the compared powers of ten. -/
theorem compiled {cfg : Cfg} {bs : List Nat} (hb : ∀ b ∈ bs, b < 256) {x : FP L P}
    (h : (fixnumConst cfg L P bs : Res ε _) = .ok x) :
    ∃ l : Literal, ∃ c v : BitVec (intBits cfg), bs = l.text.map Char.toNat ∧
      (pow10 cfg P : Res ε _) = .ok c ∧ x = ⟨SInt.cast L.bits v⟩ ∧
      (∀ g, l.frac = some g → ∃ e, (pow10 cfg g.length : Res ε _) = .ok e ∧ e.toInt ≤ c.toInt ∧
        Approx cfg v (sgn l.sign * (natOf l.int * 10 ^ P + c.toInt.tdiv e.toInt * natOf g))) ∧
      (l.frac = none → Approx cfg v (sgn l.sign * natOf l.int * 10 ^ P)) := by
  unfold fixnumConst at h
  obtain ⟨c, h1, h2⟩ := bind_ok_inv h
  obtain ⟨v, h3, h4⟩ := bind_ok_inv h2
  have hne : bs ≠ [] := by
    rintro rfl
    cases h3
  obtain ⟨sg, ib, fb, hs, rfl⟩ := split_exists bs hne
  rw [parseFixed_parts cfg hs] at h3
  obtain ⟨i, f, rfl, rfl, e3, e4⟩ := parseFixedParts_inv
    (fun b h' => hb b (by simp [h'])) (by
      rintro f rfl b h'
      exact hb b (by simp [tailBytes, h'])) (pow10_approx h1) h3
  refine ⟨⟨sg, i, f⟩, c, v, (literalBytes_eq ⟨sg, i, f⟩).symm, h1, ?_, ?_, e4⟩
  · cases h4; rfl
  · intro g hg
    obtain ⟨e, k1, k2, -, k4⟩ := e3 g hg
    exact ⟨e, k1, k2, k4⟩

theorem literalText_inj {l m : Literal} (h : l.text = m.text) (hl : l.int ≠ []) (hm : m.int ≠ []) :
    l = m := by
  have key : ∀ {l : Literal}, l.int ≠ [] → ∃ d ds, l.int = d :: ds := by
    intro l hl
    rcases hi : l.int with _ | ⟨d, ds⟩
    · exact absurd hi hl
    · exact ⟨d, ds, rfl⟩
  have hinj : Function.Injective digit := fun a b h => digit_inj h
  obtain ⟨s1, i1, f1⟩ := l
  obtain ⟨s2, i2, f2⟩ := m
  have sp : ∀ s i f, splitPoint (Literal.text ⟨s, i, f⟩) =
      f.map fun f => (Literal.signText s ++ i.map digit, f.map digit) := by
    intro s i f
    unfold Literal.text
    rcases f with _ | f
    · dsimp only
      rw [List.append_nil, splitPoint_none.2 (point_not_mem s i)]; rfl
    · exact splitPoint_some.2 ⟨rfl, point_not_mem s i⟩
  have h' := congrArg splitPoint h
  rw [sp, sp] at h'
  have hsi : Literal.signText s1 ++ i1.map digit = Literal.signText s2 ++ i2.map digit ∧
      f1 = f2 := by
    rcases f1 with _ | f1 <;> rcases f2 with _ | f2
    · unfold Literal.text at h
      simp only [List.append_nil] at h
      exact ⟨h, rfl⟩
    · cases h'
    · cases h'
    · simp only [Option.map_some, Option.some.injEq, Prod.mk.injEq] at h'
      exact ⟨h'.1, by rw [List.map_injective_iff.2 hinj h'.2]⟩
  obtain ⟨hsi, rfl⟩ := hsi
  obtain ⟨d1, t1, e1⟩ := key hl
  obtain ⟨d2, t2, e2⟩ := key hm
  simp only at e1 e2
  subst e1 e2
  have n1 : ∀ d : Fin 10, digit d ≠ '+' ∧ digit d ≠ '-' := by decide
  rcases s1 with _ | _ | _ <;> rcases s2 with _ | _ | _ <;>
    simp only [Literal.signText, List.nil_append, List.cons_append, List.map_cons,
      List.cons.injEq] at hsi
  · rw [digit_inj hsi.1, List.map_injective_iff.2 hinj hsi.2]
  · exact absurd hsi.1 (n1 d1).1
  · exact absurd hsi.1 (n1 d1).2
  · exact absurd hsi.1.symm (n1 d2).1
  · rw [digit_inj hsi.2.1, List.map_injective_iff.2 hinj hsi.2.2]
  · exact absurd hsi.1 (by decide)
  · exact absurd hsi.1.symm (n1 d2).2
  · exact absurd hsi.1 (by decide)
  · rw [digit_inj hsi.2.1, List.map_injective_iff.2 hinj hsi.2.2]

/-- C34 with overflow checks: a literal with more than `P` fractional digits does not compile. -/
theorem C34_too_precise {cfg : Cfg} (ho : cfg.overflowChecks = true) (l : Literal)
    (hl : l.WellFormed) (h : P < l.fracDigits.length) (x : FP L P) :
    (fixnumConst cfg L P (l.text.map Char.toNat) : Res ε _) ≠ .ok x := by
  intro hx
  unfold fixnumConst at hx
  obtain ⟨c, h1, h2⟩ := bind_ok_inv hx
  obtain ⟨v, h3, -⟩ := bind_ok_inv h2
  rw [show l.text.map Char.toNat = literalBytes l from rfl, literalBytes_eq,
    parseFixed_parts cfg (split_literal hl.1)] at h3
  unfold Literal.fracDigits at h
  rcases hf : l.frac with _ | f
  · rw [hf] at h; simp at h
  · rw [hf, Option.getD_some] at h
    rw [hf] at h3
    unfold parseFixedParts at h3
    simp only [Option.map_some] at h3
    obtain ⟨i, -, k1⟩ := bind_ok_inv h3
    obtain ⟨e, h4, k2⟩ := bind_ok_inv k1
    obtain ⟨u, h5, -⟩ := bind_ok_inv k2
    rw [List.length_map] at h4
    rw [approx_pow ho h4, approx_pow ho h1] at h5
    unfold constAssert at h5
    have : ¬ (10 : Int) ^ f.length ≤ 10 ^ P := by
      rw [not_le]; exact pow_lt_pow_right₀ (by norm_num) h
    rw [decide_eq_false this] at h5
    cases h5

example := C34_too_precise (ε := Unit) (cfg := debugCfg) (L := .i64) (P := 2) rfl
  ⟨none, [1], some [2, 3, 4]⟩ ⟨by simp, by simp⟩ (by decide) ⟨123⟩

/-- C34 (partial) without overflow checks: the same as long as the fraction is shorter than the
largest `Int`. -/
theorem C34_too_precise_partial {cfg : Cfg} (hv : Valid cfg L P) (l : Literal)
    (hl : l.WellFormed) (h : P < l.fracDigits.length)
    (hd : l.fracDigits.length < if cfg.i128 = true then 39 else 19) (x : FP L P) :
    (fixnumConst cfg L P (l.text.map Char.toNat) : Res ε _) ≠ .ok x := by
  intro hx
  have hw := intBits_pos cfg
  unfold fixnumConst at hx
  obtain ⟨c, h1, h2⟩ := bind_ok_inv hx
  obtain ⟨v, h3, -⟩ := bind_ok_inv h2
  rw [show l.text.map Char.toNat = literalBytes l from rfl, literalBytes_eq,
    parseFixed_parts cfg (split_literal hl.1)] at h3
  unfold Literal.fracDigits at h hd
  have hc := ten_pow_int_fits hv (le_refl P)
  rw [pow10_fits hc] at h1
  cases h1
  rcases hf : l.frac with _ | f
  · rw [hf] at h; simp at h
  · rw [hf, Option.getD_some] at h hd
    rw [hf] at h3
    have hfe := ten_pow_intDigits cfg hd
    unfold parseFixedParts at h3
    simp only [Option.map_some] at h3
    obtain ⟨i, -, k1⟩ := bind_ok_inv h3
    rw [List.length_map, pow10_fits hfe, ok_bind, toInt_ofInt_of_fits hw hfe,
      toInt_ofInt_of_fits hw hc] at k1
    unfold constAssert at k1
    have : ¬ (10 : Int) ^ f.length ≤ 10 ^ P := by
      rw [not_le]; exact pow_lt_pow_right₀ (by norm_num) h
    rw [decide_eq_false this] at k1
    cases k1

example := C34_too_precise_partial (ε := Unit) (cfg := releaseCfg) (L := .i64) (P := 2) (by decide)
  ⟨none, [1], some [2, 3, 4]⟩ ⟨by simp, by simp⟩ (by decide) (by decide) ⟨123⟩

/-- C34 is false without overflow checks: with 19 (with the feature `i128`: 39) fractional digits
the power of ten wraps around to a negative number and the fraction is dropped. -/
theorem C34_too_precise_false :
    (fixnumConst ⟨false, false, true, false⟩ .i64 9
      ("1.1234567890123456789".toList.map Char.toNat) : Res Empty _) = .ok ⟨1000000000⟩ ∧
    (fixnumConst releaseCfg .i64 9
      ("1.123456789012345678901234567890123456789".toList.map Char.toNat) : Res Empty _) =
      .ok ⟨1000000000⟩ := by
  decide +kernel

example : (fixnumConst debugCfg .i64 9 ("-0.4321".toList.map Char.toNat) : Res Empty _) =
      .ok ⟨-432100000⟩ ∧
    (FP.fromStrExact debugCfg "-0.4321".toList : Res ConvErr (FP .i64 9)) = .ok ⟨-432100000⟩ ∧
    (fixnumConst debugCfg .i64 9 ("42.".toList.map Char.toNat) : Res Empty _) =
      .ok ⟨42000000000⟩ ∧
    (fixnumConst debugCfg .i64 2 ("1.234".toList.map Char.toNat) : Res Empty _) =
      .fault .diverge ∧
    (fixnumConst debugCfg .i64 2 ("1_000".toList.map Char.toNat) : Res Empty _) =
      .fault .diverge := by
  decide +kernel
example : Literal.WellFormed ⟨some true, [0], some [4, 3, 2, 1]⟩ ∧
    Literal.text ⟨some true, [0], some [4, 3, 2, 1]⟩ = "-0.4321".toList := by
  refine ⟨⟨by simp, by simp⟩, by decide +kernel⟩

/-! ## C35: the value of a compiled literal -/

theorem compiled_raw {cfg : Cfg} (ho : cfg.overflowChecks = true) {bs : List Nat}
    (hb : ∀ b ∈ bs, b < 256) {x : FP L P} (h : (fixnumConst cfg L P bs : Res ε _) = .ok x) :
    ∃ l : Literal, bs = l.text.map Char.toNat ∧ l.fracDigits.length ≤ P ∧
      Fits (intBits cfg) (sgn l.sign * rawMag P (natOf l.int) l.fracDigits) ∧
      x = ⟨BitVec.ofInt _ (sgn l.sign * rawMag P (natOf l.int) l.fracDigits)⟩ := by
  obtain ⟨l, c, v, h1, h2, h3, h4, h5⟩ := compiled hb h
  have key : l.fracDigits.length ≤ P ∧
      v.toInt = sgn l.sign * rawMag P (natOf l.int) l.fracDigits := by
    unfold Literal.fracDigits
    rcases hf : l.frac with _ | g
    · refine ⟨by simp, ?_⟩
      rw [(h5 hf).2 ho]
      simp [rawMag, natOf, mul_assoc]
    · obtain ⟨e, k1, k2, k3⟩ := h4 g hf
      rw [approx_pow ho k1, approx_pow ho h2] at k2 k3
      have hlen : g.length ≤ P := by
        by_contra hn
        have : (10 : Int) ^ P < 10 ^ g.length := pow_lt_pow_right₀ (by norm_num) (by omega)
        omega
      refine ⟨hlen, ?_⟩
      rw [k3.2 ho, Option.getD_some, parts_raw _ hlen]
  refine ⟨l, h1, key.1, ?_, ?_⟩
  · rw [← key.2]; exact toInt_fits v
  · rw [h3, ← key.2]; rfl

/-- C35 (partial: overflow checks on and the layout is as wide as `Int`, that is `i64` without the
feature `i128` and `i128` with it).  Whatever the text, if it compiles, it is a decimal literal and
the value is exactly the number denoted. -/
theorem C35_value_partial {cfg : Cfg} (ho : cfg.overflowChecks = true)
    (hL : L.bits = if cfg.i128 = true then 128 else 64) (bs : List Nat) (hb : ∀ b ∈ bs, b < 256)
    (x : FP L P) (h : (fixnumConst cfg L P bs : Res ε _) = .ok x) :
    ∃ l : Literal, bs = l.text.map Char.toNat ∧ l.denote = value x := by
  obtain ⟨l, h1, h2, h3, h4⟩ := compiled_raw ho hb h
  refine ⟨l, h1, ?_⟩
  have : intBits cfg = L.bits := hL.symm
  rw [this] at h3
  rw [h4, value_ofInt h3, rawMag_denote l h2]

example := C35_value_partial (ε := Unit) (cfg := debugCfg) (L := .i128) (P := 18) rfl rfl
  ("-12.34".toList.map Char.toNat) (by decide +kernel) ⟨-12340000000000000000⟩ (by decide +kernel)

/-- C35 (partial: overflow checks on, any layout).  If the text compiles, it is a decimal literal
with at most `P` fractional digits, and if the number denoted is representable, the value is exactly
that number.  Otherwise the raw number is truncated to the layout. -/
theorem C35_value_representable_partial {cfg : Cfg} (ho : cfg.overflowChecks = true)
    (bs : List Nat) (hb : ∀ b ∈ bs, b < 256) (x : FP L P)
    (h : (fixnumConst cfg L P bs : Res ε _) = .ok x) :
    ∃ l : Literal, bs = l.text.map Char.toNat ∧ l.fracDigits.length ≤ P ∧
      (Representable L P l.denote → value x = l.denote) ∧
      ∃ r : Int, l.denote = (r : ℚ) / 10 ^ P ∧ x.inner = BitVec.ofInt _ r := by
  obtain ⟨l, h1, h2, h3, h4⟩ := compiled_raw ho hb h
  refine ⟨l, h1, h2, ?_, _, (rawMag_denote l h2).symm, by rw [h4]⟩
  intro hr
  rw [← rawMag_denote l h2, representable_iff] at hr
  rw [h4, value_ofInt hr, rawMag_denote l h2]

example := C35_value_representable_partial (ε := Unit) (cfg := debugCfg) (L := .i64) (P := 9) rfl
  ("-12.34".toList.map Char.toNat) (by decide +kernel) ⟨-12340000000⟩ (by decide +kernel)

/-- C35 (partial: without overflow checks, a literal whose number is representable and that has at
most `P` fractional digits). -/
theorem C35_value_release_partial {cfg : Cfg} (hv : Valid cfg L P) (l : Literal)
    (hl : l.WellFormed) (hlen : l.fracDigits.length ≤ P) (hr : Representable L P l.denote)
    (x : FP L P) (h : (fixnumConst cfg L P (l.text.map Char.toNat) : Res ε _) = .ok x) :
    value x = l.denote := by
  rw [← rawMag_denote l hlen, representable_iff] at hr
  rw [fixnumConst_inv hv hl.1 hlen h, value_ofInt hr, rawMag_denote l hlen]

example := C35_value_release_partial (ε := Unit) (cfg := releaseCfg) (L := .i64) (P := 9) (by decide)
  ⟨some true, [1, 2], some [3, 4]⟩ ⟨by simp, by simp⟩ (by decide)
  ⟨⟨-12340000000⟩, by decide +kernel⟩ ⟨-12340000000⟩ (by decide +kernel)

/-- C35 is false: `as _` truncates silently for layouts narrower than `Int`, in every build; and
without overflow checks integers wrap around. -/
theorem C35_value_false :
    (fixnumConst debugCfg .i16 2 ("1000".toList.map Char.toNat) : Res Empty _) =
      .ok ⟨-31072⟩ ∧
    (fixnumConst debugCfg .i64 9 ("10000000000.0".toList.map Char.toNat) : Res Empty _) =
      .ok ⟨-8446744073709551616⟩ ∧
    (fixnumConst ⟨false, false, true, false⟩ .i64 0
      ("18446744073709551617".toList.map Char.toNat) : Res Empty _) = .ok ⟨1⟩ := by
  decide +kernel

example : (fixnumConst debugCfg .i128 18 ("-12.34".toList.map Char.toNat) : Res Empty _) =
    .ok ⟨-12340000000000000000⟩ ∧ Layout.i128.bits = (if debugCfg.i128 = true then 128 else 64) := by
  decide +kernel
example : ∀ b ∈ "-12.34".toList.map Char.toNat, b < 256 := by decide +kernel

end Fixnum
