import Verif.Props.TextLaws
import Verif.Props.Printing
import Verif.Props.Decimal
import Verif.Props.Codec
import Verif.Props.Serde

/-!
# Property C81: what survives a change of type

A number of type `FixedPoint<L, P>` is written out and read in as `FixedPoint<L', P'>`, possibly in
another build.
-/

namespace Fixnum

open Res Spec

variable {L L' : Layout} {P P' : Nat} {ε : Type}

/-- A canonical literal of a multiple of `10^-p` has at most `p` digits after the point, or one. -/
theorem canonical_length {l : Literal} (hl : l.Canonical) {p : Nat} (hp : 1 ≤ p) {z : Int}
    (h : l.denote = (z : ℚ) / 10 ^ p) : l.fracDigits.length ≤ p := by
  rcases hl.2.2.2 with e | ⟨d, t, e, hd⟩
  · unfold Literal.fracDigits; rw [e]; simpa using hp
  · have ef : l.fracDigits = t ++ [d] := by unfold Literal.fracDigits; rw [e]; rfl
    by_contra hlt
    rw [ef] at hlt
    simp only [List.length_append, List.length_singleton, not_le] at hlt
    obtain ⟨k, hk⟩ : ∃ k, t.length = p + k := ⟨t.length - p, by omega⟩
    have hm : ∃ w : Int, l.magnitude = (w : ℚ) / 10 ^ p := by
      unfold Literal.denote at h
      split at h
      · exact ⟨-z, by push_cast; rw [neg_div, ← h, neg_neg]⟩
      · exact ⟨z, h⟩
    obtain ⟨w, hw⟩ := hm
    unfold Literal.magnitude at hw
    rw [ef, List.length_append, List.length_singleton, hk, natOf_append] at hw
    have e1 : natOf [d] = d.val := by simp [natOf]
    rw [e1, List.length_singleton, pow_one] at hw
    have t1 : (10 : ℚ) ^ p ≠ 0 := by positivity
    have t2 : (10 : ℚ) ^ k ≠ 0 := by positivity
    rw [show p + k + 1 = p + (k + 1) by ring, pow_add] at hw
    field_simp at hw
    have : ((natOf l.int * 10 ^ p * 10 ^ (k + 1) + (natOf t * 10 + d.val) : Nat) : Int) =
        w * 10 ^ (k + 1) := by
      rw [← @Int.cast_inj ℚ]
      push_cast at hw ⊢
      linarith
    have hdv : (d.val : Int) % 10 = 0 := by
      simp only [pow_succ] at this
      push_cast at this
      generalize (natOf l.int : Int) * 10 ^ p = A at *
      generalize (10 : Int) ^ k = B at *
      have : (d.val : Int) = 10 * (w * B - A * B - natOf t) := by linarith
      omega
    have := d.2
    exact hd (Fin.ext (by simp; omega))

theorem inBuffer_ok {cfg : Cfg} {t s : List Char}
    (h : (inBuffer cfg t : Res ε (List Char)) = .ok s) : s = t := by
  unfold inBuffer at h
  generalize (if cfg.i128 = true then 41 else 21) = n at h
  by_cases h1 : t.length ≤ n
  · rw [if_pos h1] at h
    cases h; rfl
  · rw [if_neg h1] at h
    cases hd : cfg.debugAssertions <;> simp [hd] at h

/-- What follows the digits before the point. -/
theorem tail_injective : ∀ {a b : List (Fin 10)} {f g : Option (List (Fin 10))},
    a.map digit ++ (match f with | none => [] | some f => '.' :: f.map digit) =
      b.map digit ++ (match g with | none => [] | some g => '.' :: g.map digit) → a = b ∧ f = g
  | [], [], f, g, h => by
    refine ⟨rfl, ?_⟩
    rcases f with _ | f <;> rcases g with _ | g <;> simp at h
    · rfl
    · rw [List.map_injective_iff.2 (fun _ _ e => digit_inj e) h]
  | [], d :: b, f, g, h => by
    exfalso
    rcases f with _ | f <;> simp at h
    exact digit_ne (by decide) d h.1.symm
  | d :: a, [], f, g, h => by
    exfalso
    rcases g with _ | g <;> simp at h
    exact digit_ne (by decide) d h.1
  | d :: a, e :: b, f, g, h => by
    simp only [List.map_cons, List.cons_append, List.cons.injEq] at h
    obtain ⟨h1, h2⟩ := tail_injective h.2
    rw [digit_inj h.1, h1, h2]
    exact ⟨rfl, rfl⟩

/-- Literals are read in one way only. -/
theorem text_injective {l m : Literal} (hl : l.WellFormed) (hm : m.WellFormed)
    (h : l.text = m.text) : l = m := by
  obtain ⟨sl, il, fl⟩ := l
  obtain ⟨sm, im, fm⟩ := m
  have key : sl = sm := by
    unfold Literal.text at h
    obtain ⟨d, t, e1⟩ := List.exists_cons_of_ne_nil hl.1
    obtain ⟨e, u, e2⟩ := List.exists_cons_of_ne_nil hm.1
    dsimp only at e1 e2
    rw [e1, e2] at h
    have m1 : ∀ d, digit d ≠ '-' := digit_ne (by decide)
    have m2 : ∀ d, digit d ≠ '+' := digit_ne (by decide)
    rcases sl with _ | _ | _ <;> rcases sm with _ | _ | _ <;>
      simp [Literal.signText] at h ⊢
    · exact m2 _ h.1
    · exact m1 _ h.1
    · exact m2 _ h.1.symm
    · exact m1 _ h.1.symm
  subst key
  unfold Literal.text at h
  rw [List.append_assoc, List.append_assoc] at h
  obtain ⟨h1, h2⟩ := tail_injective (List.append_cancel_left h)
  dsimp only at h1 h2
  rw [h1, h2]

/-- A text is that of one literal only. -/
theorem isText_unique {s : List Char} {l m : Literal} (hl : IsText s l) (hm : IsText s m) :
    l = m :=
  text_injective hl.1 hm.1 ((strTrim_text hl).symm.trans (strTrim_text hm))

theorem canonical_isText {l : Literal} (h : l.Canonical) : IsText l.text l := by
  refine ⟨⟨?_, ?_⟩, [], [], by simp, by simp, by simp⟩
  · rcases h.2.2.1 with e | ⟨d, t, e, -⟩ <;> rw [e] <;> simp
  · rcases h.2.2.2 with e | ⟨d, t, e, -⟩ <;> rw [e] <;> simp

/-- C81: text carries the number.  Read with `from_str` it is rounded to the new precision, with
`from_str_exact` it is kept or rejected. -/
theorem C81_text {cfg cfg' : Cfg} (hv : Valid cfg L P) (hv' : Valid cfg' L' P') (hP : 1 ≤ P)
    (hP' : 1 ≤ P') (hL : ¬ (L = .i128 ∧ P = 38)) (x : FP L P) :
    ∃ s, (FP.display cfg x : Res ε (List Char)) = .ok s ∧
      (∀ y : FP L' P', FP.fromStr cfg' s = .ok y ↔ value y = roundTo P' .nearest (value x)) ∧
      (∀ y : FP L' P', FP.fromStrExact cfg' s = .ok y ↔ value y = value x) := by
  obtain ⟨l, h1, h2, h3, -⟩ := C28_display_types (ε := ε) hv hP hL x
  have ht : IsText l.text l := by
    refine ⟨⟨?_, ?_⟩, [], [], by simp, by simp, by simp⟩
    · rcases h2.2.2.1 with e | ⟨d, t, e, -⟩ <;> rw [e] <;> simp
    · rcases h2.2.2.2 with e | ⟨d, t, e, -⟩ <;> rw [e] <;> simp
  refine ⟨l.text, h1, fun y => ?_, fun y => ?_⟩
  · rw [fromStr_of_text hv' hP' ht, h3]
  · obtain ⟨k1, k2⟩ := parseStr_text (P := P') hv' true ht
    unfold FP.fromStrExact
    constructor
    · intro h
      by_cases hlen : P' < l.fracDigits.length
      · obtain ⟨e, he⟩ := k1 ⟨hlen, .inl rfl⟩
        rw [he] at h; cases h
      · rw [← h3, ← rawMag_denote l (not_lt.1 hlen)]
        exact (k2 fun h => hlen h.1).ok_iff.1 h
    · intro h
      have hlen := canonical_length h2 hP' (z := y.inner.toInt) (by rw [h3, ← h]; rfl)
      rw [(k2 fun h => absurd h.1 (not_lt.2 hlen)).ok_iff, rawMag_denote l hlen, h3, h]

example := C81_text (ε := Unit) (cfg := debugCfg) (cfg' := debugCfg) (L' := .i16) (P' := 2)
  (by decide) (by decide) (by decide) (by decide) (by decide) (⟨-1500⟩ : FP .i64 3)

/-- C81: two types print the same number the same. -/
theorem C81_text_same {cfg cfg' : Cfg} (hv : Valid cfg L P) (hv' : Valid cfg' L' P') (hP : 1 ≤ P)
    (hP' : 1 ≤ P') (hL : ¬ (L = .i128 ∧ P = 38)) (hL' : ¬ (L' = .i128 ∧ P' = 38)) (x : FP L P)
    (y : FP L' P') :
    (FP.display cfg x : Res ε (List Char)) = FP.display cfg' y ↔ value x = value y := by
  obtain ⟨l, h1, h2, h3, -⟩ := C28_display_types (ε := ε) hv hP hL x
  obtain ⟨m, k1, k2, k3, -⟩ := C28_display_types (ε := ε) hv' hP' hL' y
  constructor
  · intro h
    obtain ⟨s, e1, -, e2⟩ := C81_text (ε := ε) (cfg' := cfg') hv hv' hP hP' hL x
    obtain ⟨t, e3, -, e4⟩ := C81_text (ε := ε) (cfg' := cfg') hv' hv' hP' hP' hL' y
    rw [e1, e3] at h
    cases h
    exact ((e2 y).1 ((e4 y).2 rfl)).symm
  · intro h
    rw [h1, k1, C28_canonical_unique h2 k2 (by rw [h3, k3, h])]

example := C81_text_same (ε := Unit) (cfg := debugCfg) (cfg' := debugCfg) (by decide) (by decide)
  (by decide) (by decide) (by decide) (by decide) (⟨-1500⟩ : FP .i64 3) (⟨-150⟩ : FP .i16 2)

/-- C81 for every source for which nothing overflows in printing, precision 0 and `i128` with 38
digits included: whatever `Display` returns carries the number. -/
theorem C81_text_any {cfg cfg' : Cfg} (hv : Valid cfg L P) (hv' : Valid cfg' L' P') (hP' : 1 ≤ P')
    (x : FP L P) (hx : ¬ PrintOverflows x) (s : List Char)
    (hs : (FP.display cfg x : Res ε (List Char)) = .ok s) :
    (∀ y : FP L' P', FP.fromStr cfg' s = .ok y ↔ value y = roundTo P' .nearest (value x)) ∧
      (∀ y : FP L' P', FP.fromStrExact cfg' s = .ok y ↔ value y = value x) := by
  obtain ⟨l, h2, h3, h1⟩ := C28_display_any (ε := ε) hv x hx
  have e := inBuffer_ok (h1.symm.trans hs)
  subst e
  have ht := canonical_isText h2
  refine ⟨fun y => ?_, fun y => ?_⟩
  · rw [fromStr_of_text hv' hP' ht, h3]
  · obtain ⟨k1, k2⟩ := parseStr_text (P := P') hv' true ht
    unfold FP.fromStrExact
    constructor
    · intro h
      by_cases hlen : P' < l.fracDigits.length
      · obtain ⟨e, he⟩ := k1 ⟨hlen, .inl rfl⟩
        rw [he] at h; cases h
      · rw [← h3, ← rawMag_denote l (not_lt.1 hlen)]
        exact (k2 fun h => hlen h.1).ok_iff.1 h
    · intro h
      have hlen := canonical_length h2 hP' (z := y.inner.toInt) (by rw [h3, ← h]; rfl)
      rw [(k2 fun h => absurd h.1 (not_lt.2 hlen)).ok_iff, rawMag_denote l hlen, h3, h]

example := C81_text_any (ε := Unit) (cfg := debugCfg) (cfg' := debugCfg) (L' := .i16) (P' := 2)
  (by decide) (by decide) (by decide) (⟨-1500⟩ : FP .i64 3)
  (by rw [PrintOverflows, fraction_overflow_iff, value_min_iff]; decide +kernel) "-1.5".toList
  (by decide +kernel)

/-- C81 for a target of precision 0: every printed text has a point, so each is rejected, even that
of a number which the target has (as its own texts are). -/
theorem C81_text_to_zero {cfg cfg' : Cfg} (hv : Valid cfg L P) (hv' : Valid cfg' L' 0)
    (x : FP L P) (hx : ¬ PrintOverflows x) (s : List Char)
    (hs : (FP.display cfg x : Res ε (List Char)) = .ok s) :
    (∃ e, (FP.fromStr cfg' s : Res ConvErr (FP L' 0)) = .err e) ∧
      ∃ e, (FP.fromStrExact cfg' s : Res ConvErr (FP L' 0)) = .err e := by
  obtain ⟨l, h2, -, h1⟩ := C28_display_any (ε := ε) hv x hx
  have e := inBuffer_ok (h1.symm.trans hs)
  subst e
  have ht := canonical_isText h2
  have hlen : 0 < l.fracDigits.length := by
    unfold Literal.fracDigits
    rcases h2.2.2.2 with e | ⟨d, t, e, -⟩ <;> rw [e] <;> simp
  exact ⟨(parseStr_text (P := 0) hv' false ht).1 ⟨hlen, .inr rfl⟩,
    (parseStr_text (P := 0) hv' true ht).1 ⟨hlen, .inr rfl⟩⟩

example := C81_text_to_zero (ε := Unit) (cfg := debugCfg) (cfg' := debugCfg) (L' := .i16)
  (by decide) (by decide) (⟨-1500⟩ : FP .i64 3)
  (by rw [PrintOverflows, fraction_overflow_iff, value_min_iff]; decide +kernel) "-1.5".toList
  (by decide +kernel)

/-- C81 for the same sources: equal texts are of equal numbers, and equal numbers have equal texts
where both are printed. -/
theorem C81_text_same_any {cfg cfg' : Cfg} (hv : Valid cfg L P) (hv' : Valid cfg' L' P')
    (x : FP L P) (y : FP L' P') (hx : ¬ PrintOverflows x) (hy : ¬ PrintOverflows y)
    (s t : List Char) (hs : (FP.display cfg x : Res ε (List Char)) = .ok s)
    (ht : (FP.display cfg' y : Res ε (List Char)) = .ok t) :
    s = t ↔ value x = value y := by
  obtain ⟨l, l2, l3, l1⟩ := C28_display_any (ε := ε) hv x hx
  obtain ⟨m, m2, m3, m1⟩ := C28_display_any (ε := ε) hv' y hy
  have e := inBuffer_ok (l1.symm.trans hs)
  have f := inBuffer_ok (m1.symm.trans ht)
  subst e f
  constructor
  · intro h
    rw [← l3, ← m3, text_injective (canonical_isText l2).1 (canonical_isText m2).1 h]
  · intro h
    rw [C28_canonical_unique l2 m2 (by rw [l3, m3, h])]

example := C81_text_same_any (ε := Unit) (cfg := debugCfg) (cfg' := debugCfg) (by decide) (by decide)
  (⟨-5⟩ : FP .i16 0) (⟨50⟩ : FP .i32 1)
  (by rw [PrintOverflows, fraction_overflow_iff, value_min_iff]; decide +kernel)
  (by rw [PrintOverflows, fraction_overflow_iff, value_min_iff]; decide +kernel)
  "-5.0".toList "5.0".toList (by decide +kernel) (by decide +kernel)

example : ¬ PrintOverflows (⟨-5⟩ : FP .i16 0) ∧ ¬ PrintOverflows (⟨50⟩ : FP .i32 1) ∧
    (FP.display debugCfg (⟨-5⟩ : FP .i16 0) : Res Unit _) = .ok "-5.0".toList ∧
    (FP.fromStr debugCfg "-5.0".toList : Res ConvErr (FP .i64 3)) = .ok ⟨-5000⟩ ∧
    (FP.fromStr debugCfg "-5.0".toList : Res ConvErr (FP .i16 0)) =
      .err ⟨"can't parse fractional part"⟩ := by
  refine ⟨?_, ?_, by decide +kernel, by decide +kernel, by decide +kernel⟩
  · rw [PrintOverflows, fraction_overflow_iff, value_min_iff]; decide +kernel
  · rw [PrintOverflows, fraction_overflow_iff, value_min_iff]; decide +kernel

/-- C81: mantissa and exponent carry the number: it is kept, out of range, or has too many digits
for the new precision. -/
theorem C81_decimal {cfg' : Cfg} (hv' : Valid cfg' L' P') (x : FP L P) (maxExp : Int)
    (h : -(P : Int) ≤ maxExp) (h' : -(P' : Int) ≤ maxExp) (h0 : maxExp ≤ 0) :
    ∃ m e, (FP.toDecimal x maxExp : Res ε _) = .ok (m, e) ∧
      ∀ m' : BitVec L'.bits, m'.toInt = m.toInt →
        ((∃ z : Int, value x = (z : ℚ) / 10 ^ P') →
          ExactOr (ConvErr.mk "too big mantissa")
            (FP.fromDecimal cfg' m' e : Res ConvErr (FP L' P')) (value x)) ∧
        ((¬ ∃ z : Int, value x = (z : ℚ) / 10 ^ P') →
          (FP.fromDecimal cfg' m' e : Res ConvErr (FP L' P')) = .err ⟨"unsupported exponent"⟩) := by
  obtain ⟨m, e, h1, h2, h3, h4, h5, h6⟩ := C25_to_decimal (ε := ε) x maxExp h
  refine ⟨m, e, h1, fun m' hm => ⟨?_, ?_⟩⟩
  · rintro ⟨z, hz⟩
    have he : -(P' : Int) ≤ e := by
      by_contra hlt
      by_cases hx : value x = 0
      · rw [h6 hx] at hlt; omega
      · apply h5 hx (by omega)
        obtain ⟨k, hk⟩ : ∃ k : Nat, -(P' : Int) = e + 1 + k := ⟨(-(P' : Int) - e - 1).toNat, by omega⟩
        rw [hz, div_eq_mul_inv, ← zpow_natCast, ← zpow_neg, hk, zpow_add₀ (by norm_num),
          zpow_add₀ (by norm_num), zpow_one, zpow_natCast] at h4
        have hne : (10 : ℚ) ^ e ≠ 0 := zpow_ne_zero _ (by norm_num)
        have : (m.toInt : ℚ) = 10 * (z * 10 ^ k) := by
          apply mul_right_cancel₀ hne; rw [h4]; ring
        exact ⟨z * 10 ^ k, by exact_mod_cast this⟩
    have := C24_from_decimal_nonpos hv' m' e ⟨he, by omega⟩
    rwa [hm, h4] at this
  · intro hz
    apply C24_from_decimal_exponent
    left
    by_contra hlt
    apply hz
    obtain ⟨k, hk⟩ : ∃ k : Nat, e = -(P' : Int) + k := ⟨(e + P').toNat, by omega⟩
    refine ⟨m.toInt * 10 ^ k, ?_⟩
    rw [← h4, hk, zpow_add₀ (by norm_num), zpow_neg, zpow_natCast, zpow_natCast]
    push_cast
    field_simp

example := C81_decimal (ε := Unit) (cfg' := debugCfg) (L' := .i16) (P' := 2) (by decide)
  (⟨-1500⟩ : FP .i64 3) (-2) (by decide) (by decide) (by decide)

/-- C81: SCALE bytes carry the raw number, not the precision: read at another precision the number
is scaled.  A wider layout rejects the bytes, a narrower one leaves some of them. -/
theorem C81_scale (x : FP L P) (rest : List (BitVec 8)) :
    (∃ y : FP L P', FP.decode (FP.encode x ++ rest) = .ok (y, rest) ∧
      value y * 10 ^ P' = value x * 10 ^ P) ∧
    (L.bits < L'.bits → (FP.decode (FP.encode x) : Res CodecErr (FP L' P' × _)) =
      .err ⟨"Error decoding FixedPoint value"⟩) ∧
    (L'.bits < L.bits → ∃ (y : FP L' P') (t : List (BitVec 8)),
      FP.decode (FP.encode x) = .ok (y, t) ∧ 8 * t.length = L.bits - L'.bits) := by
  refine ⟨⟨⟨x.inner⟩, C48_round_trip (⟨x.inner⟩ : FP L P') rest, ?_⟩, fun h => ?_, fun h => ?_⟩
  · have t1 := ten_pow_ne P
    have t2 := ten_pow_ne P'
    unfold value
    field_simp
  · rw [C48_decode_short, C48_length]; exact h
  · have hl := C48_length x
    have hb : 8 * (L'.bits / 8) = L'.bits := (bits_div L').symm
    have hlen : L'.bits / 8 ≤ (FP.encode x).length := by omega
    have ht : ((FP.encode x).take (L'.bits / 8)).length = L'.bits / 8 := by
      rw [List.length_take]; omega
    let y : FP L' P' := ⟨BitVec.ofNat _ (leNat ((FP.encode x).take (L'.bits / 8)))⟩
    refine ⟨y, (FP.encode x).drop (L'.bits / 8), ?_, ?_⟩
    · rw [C48_decode_iff]
      have : FP.encode y = (FP.encode x).take (L'.bits / 8) := by
        have e := encodeLe_leNat ((FP.encode x).take (L'.bits / 8))
        rw [ht] at e
        have hlt := leNat_lt ((FP.encode x).take (L'.bits / 8))
        rw [ht, hb] at hlt
        rw [show FP.encode y = encodeLe (L'.bits / 8) y.inner.toNat from rfl]
        rw [show y.inner.toNat = leNat ((FP.encode x).take (L'.bits / 8)) by
          simp only [y, BitVec.toNat_ofNat]; exact Nat.mod_eq_of_lt hlt]
        exact e
      rw [this, List.take_append_drop]
    · rw [List.length_drop]; omega

example : (FP.decode (FP.encode (⟨-1500⟩ : FP .i32 3)) : Res CodecErr (FP .i32 1 × _)) =
      .ok (⟨-1500⟩, []) ∧
    (FP.decode (FP.encode (⟨-1500⟩ : FP .i32 3)) : Res CodecErr (FP .i64 3 × _)) =
      .err ⟨"Error decoding FixedPoint value"⟩ := by decide +kernel

/-- C81: so do the binary formats of serde, while the human-readable ones carry the number. -/
theorem C81_serde {cfg cfg' : Cfg} (hv : Valid cfg L P) (hv' : Valid cfg' L' P') (hP : 1 ≤ P)
    (hP' : 1 ≤ P') (hL : ¬ (L = .i128 ∧ P = 38)) (x : FP L P) (q b : Bool) :
    (∃ t, (FP.serialize cfg false x : Res ε _) = .ok t ∧ ∀ c, Delivers b t c → ∀ y : FP L' P',
      FP.deserialize cfg' q false c = .ok y → value y * 10 ^ P' = value x * 10 ^ P) ∧
    (∃ t, (FP.serialize cfg true x : Res ε _) = .ok t ∧ ∀ c, Delivers b t c → ∀ y : FP L' P',
      FP.deserialize cfg' q true c = .ok y ↔ value y = roundTo P' .nearest (value x)) := by
  have t1 := ten_pow_ne P
  have t2 := ten_pow_ne P'
  constructor
  · obtain ⟨n, h1, -, h3, -⟩ := C49_binary (ε := ε) (cfg := cfg) (cfg' := cfg') x
    refine ⟨_, h1, fun c hc y hy => ?_⟩
    obtain ⟨k, w, hk, -, e⟩ := (C50_binary_iff q c y).1 hy
    have hkn : k = n := by
      cases hc with
      | int => rcases hk with hk | ⟨m, hk, -⟩ <;> cases hk; rfl
      | signed => rcases hk with hk | ⟨m, hk, -⟩ <;> cases hk; rfl
      | unsigned _ _ _ _ _ hm =>
        rcases hk with hk | ⟨m, hk, hk2⟩ <;> cases hk
        rw [← hk2, hm]
    rw [e, h3, hkn]
    field_simp
  · obtain ⟨s, h1, h2, -⟩ := C49_human_partial (ε := ε) hv hP hL x
    obtain ⟨t, k1, k2, -⟩ := C81_text (ε := ε) hv hv' hP hP' hL x
    rw [h2] at k1; cases k1
    refine ⟨_, h1, fun c hc y => ?_⟩
    cases hc with
    | str _ b' _ => rw [(C50_string b' q s y).1]; exact k2 y

example := C81_serde (ε := Unit) (cfg := debugCfg) (cfg' := debugCfg) (L' := .i16) (P' := 2)
  (by decide) (by decide) (by decide) (by decide) (by decide) (⟨-1500⟩ : FP .i64 3) true false

/-- C81, human-readable serde, for every source for which nothing overflows in printing: whatever
`Serialize` writes is read as the number rounded to the new precision, and by a type of precision 0
not at all. -/
theorem C81_serde_any {cfg cfg' : Cfg} (hv : Valid cfg L P) (hv' : Valid cfg' L' P') (x : FP L P)
    (hx : ¬ PrintOverflows x) (t : SerToken)
    (ht : (FP.serialize cfg true x : Res ε SerToken) = .ok t) (q b : Bool) (c : Content)
    (hc : Delivers b t c) (y : FP L' P') :
    FP.deserialize cfg' q true c = .ok y ↔
      1 ≤ P' ∧ value y = roundTo P' .nearest (value x) := by
  obtain ⟨s, h1, h2⟩ : ∃ s, (FP.display cfg x : Res ε (List Char)) = .ok s ∧ t = .str s := by
    unfold FP.serialize FP.strSerialize at ht
    rw [if_pos rfl] at ht
    rcases e1 : (FP.stringify cfg x [] : Res ε (List Char)) with s | e | f
    · rw [e1] at ht
      injection ht with ht
      exact ⟨s, e1, ht.symm⟩
    · rw [e1] at ht; cases ht
    · rw [e1] at ht; cases ht
  subst h2
  cases hc with
  | str _ b' _ =>
    rw [(C50_string b' q s y).1]
    rcases Nat.eq_zero_or_pos P' with h | h
    · subst h
      obtain ⟨⟨e, he⟩, -⟩ := C81_text_to_zero (ε := ε) hv hv' x hx s h1
      rw [he]
      constructor
      · intro h; cases h
      · intro h; omega
    · rw [(C81_text_any (ε := ε) hv hv' h x hx s h1).1]
      exact ⟨fun e => ⟨h, e⟩, fun e => e.2⟩

example := C81_serde_any (ε := Unit) (cfg := debugCfg) (cfg' := debugCfg) (L' := .i64) (P' := 3)
  (by decide) (by decide) (⟨5⟩ : FP .i128 38)
  (by rw [PrintOverflows, fraction_overflow_iff, value_min_iff]; decide +kernel)
  (.str "0.00000000000000000000000000000000000005".toList) (by decide +kernel) true true _
  (.str _ true (by simp)) ⟨0⟩

-- the i128 type with 38 digits, which the named types of `C81_serde` leave out
example : Valid debugCfg .i128 38 ∧ ¬ PrintOverflows (⟨5⟩ : FP .i128 38) ∧
    ∃ t, (FP.serialize debugCfg true (⟨5⟩ : FP .i128 38) : Res Unit _) = .ok t := by
  refine ⟨by decide, ?_, ?_⟩
  · rw [PrintOverflows, fraction_overflow_iff, value_min_iff]; decide +kernel
  exact ⟨.str "0.00000000000000000000000000000000000005".toList, by decide +kernel⟩

-- 12.34 with two digits, read with three, with one, and in another layout
example : (FP.display debugCfg (⟨1234⟩ : FP .i64 2) : Res Unit _) = .ok "12.34".toList ∧
    (FP.fromStr debugCfg "12.34".toList : Res _ (FP .i64 3)) = .ok ⟨12340⟩ ∧
    (FP.fromStr debugCfg "12.34".toList : Res _ (FP .i128 1)) = .ok ⟨123⟩ ∧
    (FP.fromStrExact debugCfg "12.34".toList : Res _ (FP .i128 1)) =
      .err ⟨"requested precision is too high"⟩ ∧
    (FP.toDecimal (⟨1234⟩ : FP .i64 2) 0 : Res Unit _) = .ok (1234, -2) ∧
    (FP.fromDecimal debugCfg 1234 (-2) : Res _ (FP .i32 3)) = .ok ⟨12340⟩ ∧
    (FP.fromDecimal debugCfg 1234 (-2) : Res _ (FP .i32 1)) = .err ⟨"unsupported exponent"⟩ ∧
    (FP.decode (FP.encode (⟨1234⟩ : FP .i64 2)) : Res _ (FP .i64 3 × _)) = .ok (⟨1234⟩, []) := by
  decide +kernel

end Fixnum
