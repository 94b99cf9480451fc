import Verif.Props.Text
import Verif.Props.Float
import Verif.Props.Decimal

/-!
# Property C102: the reason given for a rejected conversion

Which error message a text is rejected with, stated without reference to the parser: the reasons
are an ordered list of conditions on the text between the white space.
-/

namespace Fixnum

open Res Spec F64

variable {L : Layout} {P : Nat} {ε : Type}

namespace Spec

/-- `t` is an optional sign followed by at least one digit, and writes the integer `n`. -/
def Writes (t : List Char) (n : Int) : Prop :=
  ∃ sg, ∃ ds : List (Fin 10), ds ≠ [] ∧ t = Literal.signText sg ++ ds.map digit ∧
    n = if sg = some true then -(natOf ds : Int) else natOf ds

/-- `t` writes the integer `n`, which is one of the layout. -/
def WritesIn (L : Layout) (t : List Char) (n : Int) : Prop :=
  Writes t n ∧ rawMin L ≤ n ∧ n ≤ rawMax L

/-- `t` is `s` without the white space around it. -/
def Core (s t : List Char) : Prop :=
  (∃ a b, s = a ++ t ++ b ∧ (∀ c ∈ a, c.toNat ∈ whiteSpace) ∧ ∀ c ∈ b, c.toNat ∈ whiteSpace) ∧
  (∀ c, t.head? = some c → c.toNat ∉ whiteSpace) ∧ ∀ c, t.getLast? = some c → c.toNat ∉ whiteSpace

/-- The text `t` is to be rejected for the given reason. -/
inductive Rejected (L : Layout) (P : Nat) (exact : Bool) (t : List Char) : String → Prop
  /-- No point, and not an integer of the layout. -/
  | integer (h : '.' ∉ t) (hn : ¬ ∃ n, WritesIn L t n) : Rejected L P exact t "can't parse integer"
  /-- No point, an integer of the layout, but not representable. -/
  | bigInteger (n : Int) (h : '.' ∉ t) (hn : WritesIn L t n) (hr : ¬ Representable L P n) :
      Rejected L P exact t "too big number"
  /-- What is before the first point is not an integer of the layout. -/
  | integral (i f : List Char) (h : t = i ++ '.' :: f) (hi : '.' ∉ i) (hn : ¬ ∃ n, WritesIn L i n) :
      Rejected L P exact t "can't parse integral part"
  /-- After the point there is something that is not a digit. -/
  | digits (i f : List Char) (n : Int) (h : t = i ++ '.' :: f) (hn : WritesIn L i n)
      (hf : ∃ c ∈ f, ∀ d, c ≠ digit d) :
      Rejected L P exact t "can't parse fractional part: must contain digits only"
  /-- More digits after the point than the type has, where the exact number is asked for. -/
  | precision (i : List Char) (f : List (Fin 10)) (n : Int) (h : t = i ++ '.' :: f.map digit)
      (hn : WritesIn L i n) (hx : exact = true) (hf : P < f.length) :
      Rejected L P exact t "requested precision is too high"
  /-- No digits after the point, or none that the type has. -/
  | fraction (i : List Char) (f : List (Fin 10)) (n : Int) (h : t = i ++ '.' :: f.map digit)
      (hn : WritesIn L i n) (hf : f = [] ∨ exact = false ∧ P = 0) :
      Rejected L P exact t "can't parse fractional part"
  /-- What is before the point is an integer of the layout, but not representable. -/
  | bigIntegral (i : List Char) (f : List (Fin 10)) (n : Int) (h : t = i ++ '.' :: f.map digit)
      (hn : WritesIn L i n) (hf : f ≠ []) (hx : exact = true → f.length ≤ P)
      (hP : exact = false → P ≠ 0) (hr : ¬ Representable L P n) :
      Rejected L P exact t "too big integral"
  /-- What is before the point is representable, the whole number is not. -/
  | bigNumber (l : Literal) (i : List Char) (f : List (Fin 10)) (n : Int) (h : t = l.text)
      (hl : l.frac = some f) (hi : t = i ++ '.' :: f.map digit)
      (hn : WritesIn L i n) (hf : f ≠ []) (hx : exact = true → f.length ≤ P)
      (hP : exact = false → P ≠ 0) (hrep : Representable L P n)
      (hr : ¬ Representable L P (roundTo P .nearest l.denote)) :
      Rejected L P exact t "too big number"

end Spec

/-! ## Lemmas -/

theorem not_white {c : Char} : c.toNat ∉ whiteSpace ↔ isWhitespace c = false := by
  rw [← isWhitespace_iff, Bool.not_eq_true]

theorem core_trim {s t : List Char} (h : Core s t) : strTrim s = t := by
  obtain ⟨⟨a, b, rfl, ha, hb⟩, h1, h2⟩ := h
  by_cases ht : t = []
  · subst ht
    have hall : ∀ c ∈ a ++ b, isWhitespace c = true := by
      intro c hc
      rw [isWhitespace_iff]
      rcases List.mem_append.1 hc with h | h
      · exact ha c h
      · exact hb c h
    have := dropWhile_all (b := []) hall
    unfold strTrim
    rw [List.append_nil] at this ⊢
    rw [this]; rfl
  · exact strTrim_eq (fun c hc => (isWhitespace_iff c).2 (ha c hc))
      (fun c hc => (isWhitespace_iff c).2 (hb c hc)) ht (fun c hc => not_white.1 (h1 c hc))
      fun c hc => not_white.1 (h2 c hc)

theorem dropWhile_head {α : Type} (p : α → Bool) (l : List α) (c : α)
    (h : (l.dropWhile p).head? = some c) : p c = false := by
  induction l with
  | nil => simp at h
  | cons d l ih =>
    rw [List.dropWhile_cons] at h
    by_cases hd : p d = true
    · rw [if_pos hd] at h; exact ih h
    · rw [if_neg hd] at h; simp at h; subst h; simpa using hd

theorem core_exists (s : List Char) : Core s (strTrim s) := by
  obtain ⟨a, b, h1, h2, h3⟩ := strTrim_split s
  refine ⟨⟨a, b, h1, fun c hc => (isWhitespace_iff c).1 (h2 c hc),
    fun c hc => (isWhitespace_iff c).1 (h3 c hc)⟩, ?_, ?_⟩
  · intro c hc
    rw [not_white]
    unfold strTrim at hc
    rw [List.head?_reverse] at hc
    -- the last element of what is left of the reversed text is its first
    generalize hu : s.dropWhile isWhitespace = u at hc
    have h4 := List.takeWhile_append_dropWhile (p := isWhitespace) (l := u.reverse)
    have h5 : u.reverse.getLast? = some c := by
      rw [← h4, List.getLast?_append, hc]; rfl
    rw [List.getLast?_reverse, ← hu] at h5
    exact dropWhile_head _ _ _ h5
  · intro c hc
    rw [not_white]
    unfold strTrim at hc
    rw [List.getLast?_reverse] at hc
    exact dropWhile_head _ _ _ hc

theorem core_iff {s t : List Char} : Core s t ↔ t = strTrim s :=
  ⟨fun h => (core_trim h).symm, fun h => h ▸ core_exists s⟩

theorem inRange_iff (n : Int) : (rawMin L ≤ n ∧ n ≤ rawMax L) ↔ Fits L.bits n := by
  rw [fits_iff]

/-- An integer of the layout as the standard library reads it. -/
theorem writesIn_iff (t : List Char) (n : Int) :
    WritesIn L t n ↔ ∃ v : BitVec L.bits, parseSigned L.bits t = some v ∧ v.toInt = n := by
  have hw := bits_pos L
  unfold WritesIn Writes
  rw [inRange_iff]
  constructor
  · rintro ⟨⟨sg, ds, hne, rfl, hn⟩, hf⟩
    rw [parseSigned_digits _ sg ds hne, signed, ← hn, SInt.checked_fits hf]
    exact ⟨_, rfl, toInt_ofInt_of_fits hw hf⟩
  · rintro ⟨v, hv, rfl⟩
    obtain ⟨sg, ds, hne, rfl⟩ := parseSigned_shape hv
    rw [parseSigned_digits _ sg ds hne, signed] at hv
    by_cases hf : Fits L.bits (if sg = some true then -(natOf ds : Int) else natOf ds)
    · rw [SInt.checked_fits hf, Option.some.injEq] at hv
      rw [← hv, toInt_ofInt_of_fits hw hf]
      exact ⟨⟨sg, ds, hne, rfl, rfl⟩, hf⟩
    · rw [SInt.checked_not hf] at hv; cases hv

theorem not_writesIn {t : List Char} (h : ¬ ∃ n, WritesIn L t n) : parseSigned L.bits t = none := by
  rcases hp : parseSigned L.bits t with _ | v
  · rfl
  · exact absurd ⟨v.toInt, (writesIn_iff t _).2 ⟨v, hp, rfl⟩⟩ h

/-- There is no point in an integer. -/
theorem writes_no_point {t : List Char} {n : Int} (h : Writes t n) : '.' ∉ t := by
  obtain ⟨sg, ds, -, rfl, -⟩ := h
  exact point_not_mem sg ds

/-- Everything `parse_str` does with an integer, a point and digits. -/
theorem parseStr_parts {cfg : Cfg} (hv : Valid cfg L P) (exact : Bool) {s : List Char}
    {sg : Option Bool} {i f : List (Fin 10)} (hi : i ≠ [])
    (hs : strTrim s = Literal.signText sg ++ i.map digit ++ '.' :: f.map digit)
    (hfi : Fits L.bits (sgn sg * natOf i)) :
    (exact = true → P < f.length → (FP.parseStr cfg exact s : Res ConvErr (FP L P)) =
      .err ⟨"requested precision is too high"⟩) ∧
    (f = [] ∨ exact = false ∧ P = 0 → (FP.parseStr cfg exact s : Res ConvErr (FP L P)) =
      .err ⟨"can't parse fractional part"⟩) ∧
    (f ≠ [] → (exact = true → f.length ≤ P) → (exact = false → P ≠ 0) →
      OkOrErr (FP.parseStr cfg exact s : Res ConvErr (FP L P)) (sgn sg * rawMag P (natOf i) f)
        (bigReason L P (sgn sg * natOf i))) := by
  unfold FP.parseStr
  rw [hs]
  dsimp only
  rw [splitPoint_some.2 ⟨rfl, point_not_mem sg i⟩]
  dsimp only
  rw [parseSigned_digits _ sg i hi, signed_eq, SInt.checked_fits hfi, ofOption_some, ok_bind,
    all_digits, Bool.not_true, if_neg (by simp)]
  obtain ⟨d, ds, rfl⟩ : ∃ d ds, i = d :: ds := by
    cases i with
    | nil => exact absurd rfl hi
    | cons d ds => exact ⟨d, ds, rfl⟩
  obtain ⟨c, hc, hc'⟩ := head_digits (ε := ConvErr) d ds ('.' :: f.map digit) sg
  rw [hc, ok_bind, hc', List.length_map]
  by_cases hlen : P < f.length
  swap
  · rw [decide_eq_false hlen, Bool.and_false, Bool.and_false, if_neg (by simp), if_neg (by simp)]
    refine ⟨fun _ h => absurd h hlen, fun h => ?_, fun hf _ _ => ?_⟩
    · have : f = [] := by
        rcases h with h | ⟨-, h⟩
        · exact h
        · exact List.eq_nil_of_length_eq_zero (by omega)
      rw [this]
      exact parseParts_empty hv _ _ _ _
    · have := parseParts_reason hv exact sg (natOf (d :: ds)) f hf (by omega) false (by simp) hfi
      unfold rawMag
      rw [if_pos (by omega)]
      rw [if_neg (by simp), if_neg (by simp), add_zero] at this
      exact this
  have hne : f ≠ [] := by rintro rfl; simp at hlen
  rw [decide_eq_true hlen, Bool.and_true, Bool.and_true]
  cases exact with
  | true =>
    rw [if_pos rfl]
    exact ⟨fun _ _ => rfl, fun h => by simp [hne] at h, fun _ h => absurd (h rfl) (by omega)⟩
  | false =>
    have hx : (idx (f.map digit) P : Res ConvErr Char) = .ok (digit (f.getD P 0)) := by
      unfold idx
      rw [List.getElem?_map, List.getElem?_eq_getElem hlen, List.getD_eq_getElem _ _ hlen]
      rfl
    rw [if_neg (by simp), Bool.not_false, if_pos rfl, hx, ok_bind, ← List.map_take, digit_toNat]
    refine ⟨fun h => by simp at h, fun h => ?_, fun _ _ hP => ?_⟩
    · have hP : P = 0 := by simpa [hne] using h
      subst hP
      exact parseParts_empty hv _ _ _ _
    · have hP := hP rfl
      have hl : (f.take P).length = P := by rw [List.length_take]; omega
      have := parseParts_reason hv false sg (natOf (d :: ds)) (f.take P)
        (by intro h; rw [h] at hl; simp at hl; omega) (by omega)
        (decide (53 ≤ 48 + (f.getD P 0).val)) (fun _ => ⟨rfl, hl⟩) hfi
      rw [hl, Nat.sub_self, pow_zero, one_mul] at this
      unfold rawMag
      rw [if_neg (show ¬ f.length ≤ P by omega), ← add_assoc]
      by_cases h5 : 5 ≤ (f.getD P 0).val
      · rw [decide_eq_true (by omega), if_pos rfl, if_pos rfl] at this
        rw [if_pos h5, if_pos (by omega)]
        exact this
      · rw [decide_eq_false (by omega), if_neg (by simp), if_neg (by simp)] at this
        rw [if_neg h5, if_neg (by omega)]
        exact this

/-- The parts of a text with an integer before the point. -/
theorem writesIn_digits {i : List Char} {n : Int} (h : WritesIn L i n) :
    ∃ sg, ∃ ds : List (Fin 10), ds ≠ [] ∧ i = Literal.signText sg ++ ds.map digit ∧
      n = sgn sg * natOf ds ∧ Fits L.bits (sgn sg * natOf ds) := by
  obtain ⟨⟨sg, ds, hne, rfl, hn⟩, hr⟩ := h
  rw [inRange_iff] at hr
  have e : n = sgn sg * natOf ds := by rw [hn, ← signed_eq]; rfl
  exact ⟨sg, ds, hne, rfl, e, e ▸ hr⟩

theorem signText_split {sg sg' : Option Bool} {a b : List (Fin 10)}
    (h : Literal.signText sg ++ a.map digit = Literal.signText sg' ++ b.map digit) :
    sg = sg' ∧ a = b := by
  have inj : ∀ {a b : List (Fin 10)}, a.map digit = b.map digit → a = b := by
    intro a b h
    exact List.map_injective_iff.2 (fun _ _ => digit_inj) h
  have key : ∀ (a : List (Fin 10)) (c : Char) (t : List Char), isDigit10 c = false →
      a.map digit ≠ c :: t := by
    intro a c t hc h
    cases a with
    | nil => simp at h
    | cons d a =>
      rw [List.map_cons, List.cons.injEq] at h
      exact digit_ne hc d h.1
  rcases sg with _ | _ | _ <;> rcases sg' with _ | _ | _ <;>
    simp only [Literal.signText, List.nil_append, List.cons_append, List.cons.injEq, true_and] at h
  · exact ⟨rfl, inj h⟩
  · exact absurd h (key _ _ _ (by decide))
  · exact absurd h (key _ _ _ (by decide))
  · exact absurd h.symm (key _ _ _ (by decide))
  · exact ⟨rfl, inj h⟩
  · exact absurd h.1 (by decide)
  · exact absurd h.symm (key _ _ _ (by decide))
  · exact absurd h.1 (by decide)
  · exact ⟨rfl, inj h⟩

/-- Each reason is the one given. -/
theorem parseStr_of_rejected {cfg : Cfg} (hv : Valid cfg L P) (exact : Bool) {s : List Char}
    {r : String} (h : Rejected L P exact (strTrim s) r) :
    (FP.parseStr cfg exact s : Res ConvErr (FP L P)) = .err ⟨r⟩ := by
  have hw := bits_pos L
  generalize ht : strTrim s = t at h
  cases h with
  | integer h hn =>
    unfold FP.parseStr
    rw [ht]; dsimp only
    rw [splitPoint_none.2 h]; dsimp only
    rw [not_writesIn hn, ofOption_none, err_bind]
  | bigInteger n h hn hr =>
    obtain ⟨v, hp, rfl⟩ := (writesIn_iff t n).1 hn
    unfold FP.parseStr
    rw [ht]; dsimp only
    rw [splitPoint_none.2 h]; dsimp only
    rw [hp, ofOption_some, ok_bind, tryFromInt_spec hv, if_neg]
    rwa [representable_int] at hr
  | integral i f h hi hn =>
    unfold FP.parseStr
    rw [ht]; dsimp only
    rw [splitPoint_some.2 ⟨h, hi⟩]; dsimp only
    rw [not_writesIn hn, ofOption_none, err_bind]
  | digits i f n h hn hf =>
    obtain ⟨v, hp, rfl⟩ := (writesIn_iff i n).1 hn
    unfold FP.parseStr
    rw [ht]; dsimp only
    rw [splitPoint_some.2 ⟨h, writes_no_point hn.1⟩]; dsimp only
    rw [hp, ofOption_some, ok_bind, if_pos]
    rw [Bool.not_eq_true', ← Bool.not_eq_true]
    intro hall
    obtain ⟨c, hc, hd⟩ := hf
    rw [List.all_eq_true] at hall
    obtain ⟨d, h⟩ := digit_of c (hall c hc)
    exact hd d h
  | precision i f n h hn hx hf =>
    obtain ⟨sg, ds, hne, rfl, -, hfit⟩ := writesIn_digits hn
    exact (parseStr_parts hv exact hne (ht.trans h) hfit).1 hx hf
  | fraction i f n h hn hf =>
    obtain ⟨sg, ds, hne, rfl, -, hfit⟩ := writesIn_digits hn
    exact (parseStr_parts hv exact hne (ht.trans h) hfit).2.1 hf
  | bigIntegral i f n h hn hf hx hP hr =>
    obtain ⟨sg, ds, hne, rfl, e, hfit⟩ := writesIn_digits hn
    have := (parseStr_parts hv exact hne (ht.trans h) hfit).2.2 hf hx hP
    rw [representable_int, e] at hr
    rw [bigReason, if_neg hr] at this
    refine this.2 fun h2 => hr ?_
    rw [mul_assoc]
    refine sgn_mul_fits sg (by positivity) ?_ h2
    unfold rawMag
    have h0 : (0 : Int) ≤ 10 ^ (P - f.length) * natOf f := by positivity
    split
    · omega
    · split <;> omega
  | bigNumber l i f n h hl hi hn hf hx hP hn' hr =>
    obtain ⟨sg, ds, hne, rfl, e, hfit⟩ := writesIn_digits hn
    have := (parseStr_parts hv exact hne (ht.trans hi) hfit).2.2 hf hx hP
    rw [representable_int, e] at hn'
    rw [bigReason, if_pos hn'] at this
    refine this.2 fun h2 => hr ?_
    rw [← rawMag_roundTo, representable_iff]
    obtain ⟨sg', i', f'⟩ := l
    dsimp only at hl
    subst hl
    rw [h] at hi
    unfold Literal.text at hi
    dsimp only at hi
    have hsp := List.append_left_inj ('.' :: f.map digit) |>.1 hi
    obtain ⟨rfl, rfl⟩ := signText_split hsp
    exact h2

/-- Every text is accepted or to be rejected for one of the reasons. -/
theorem accepted_or_rejected {cfg : Cfg} (hv : Valid cfg L P) (exact : Bool) (s : List Char) :
    (∃ x : FP L P, FP.parseStr cfg exact s = .ok x) ∨ ∃ r, Rejected L P exact (strTrim s) r := by
  by_cases hpt : '.' ∈ strTrim s
  swap
  · by_cases hn : ∃ n, WritesIn L (strTrim s) n
    swap
    · exact .inr ⟨_, .integer hpt hn⟩
    obtain ⟨n, hn⟩ := hn
    by_cases hr : Representable L P (n : ℚ)
    · left
      obtain ⟨v, hp, rfl⟩ := (writesIn_iff _ n).1 hn
      unfold FP.parseStr
      dsimp only
      rw [splitPoint_none.2 hpt]; dsimp only
      rw [hp, ofOption_some, ok_bind, tryFromInt_spec hv, if_pos (by rwa [representable_int] at hr)]
      exact ⟨_, rfl⟩
    · exact .inr ⟨_, .bigInteger n hpt hn hr⟩
  rcases hsp : splitPoint (strTrim s) with _ | ⟨i, f⟩
  · exact absurd hpt (splitPoint_none.1 hsp)
  obtain ⟨hs, hi⟩ := splitPoint_some.1 hsp
  by_cases hn : ∃ n, WritesIn L i n
  swap
  · exact .inr ⟨_, .integral i f hs hi hn⟩
  obtain ⟨n, hn⟩ := hn
  by_cases hall : f.all isDigit10 = true
  swap
  · refine .inr ⟨_, .digits i f n hs hn ?_⟩
    rw [List.all_eq_true] at hall
    push Not at hall
    obtain ⟨c, hc, hd⟩ := hall
    refine ⟨c, hc, ?_⟩
    rintro d rfl
    exact hd (isDigit10_digit d)
  obtain ⟨f, rfl⟩ := digits_of f hall
  by_cases hx : exact = true ∧ P < f.length
  · exact .inr ⟨_, .precision i f n hs hn hx.1 hx.2⟩
  by_cases hf : f = [] ∨ exact = false ∧ P = 0
  · exact .inr ⟨_, .fraction i f n hs hn hf⟩
  push Not at hf
  have hx' : exact = true → f.length ≤ P := fun h => not_lt.1 fun h2 => hx ⟨h, h2⟩
  by_cases hr : Representable L P (n : ℚ)
  swap
  · exact .inr ⟨_, .bigIntegral i f n hs hn hf.1 hx' hf.2 hr⟩
  obtain ⟨sg, ds, hne, rfl, e, hfit⟩ := writesIn_digits hn
  by_cases hw : Representable L P (roundTo P .nearest (Literal.denote ⟨sg, ds, some f⟩))
  · left
    have := (parseStr_parts hv exact hne hs hfit).2.2 hf.1 hx' hf.2
    rw [← rawMag_roundTo, representable_iff] at hw
    exact ⟨_, this.1 hw⟩
  · exact .inr ⟨_, .bigNumber ⟨sg, ds, some f⟩ _ f n hs rfl hs hn hf.1 hx' hf.2 hr hw⟩

theorem parseStr_err_iff {cfg : Cfg} (hv : Valid cfg L P) (exact : Bool) (s : List Char)
    (r : String) : (FP.parseStr cfg exact s : Res ConvErr (FP L P)) = .err ⟨r⟩ ↔
      ∃ t, Core s t ∧ Rejected L P exact t r := by
  simp only [core_iff, exists_eq_left]
  refine ⟨fun h => ?_, parseStr_of_rejected hv exact⟩
  rcases accepted_or_rejected hv exact s with ⟨x, hx⟩ | ⟨r', hr'⟩
  · rw [hx] at h; cases h
  · rw [parseStr_of_rejected hv exact hr'] at h
    injection h with h
    injection h with h
    exact h ▸ hr'

/-! ## C102 -/

/-- C102: which texts `from_str` rejects, and with which message. -/
theorem C102_from_str {cfg : Cfg} (hv : Valid cfg L P) (s : List Char) (r : String) :
    (FP.fromStr cfg s : Res ConvErr (FP L P)) = .err ⟨r⟩ ↔
      ∃ t, Core s t ∧ Rejected L P false t r :=
  parseStr_err_iff hv false s r

example := C102_from_str (cfg := debugCfg) (L := .i16) (P := 3) (by decide) " 99.1234".toList
  "too big integral"

/-- C102: which texts `from_str_exact` rejects, and with which message. -/
theorem C102_from_str_exact {cfg : Cfg} (hv : Valid cfg L P) (s : List Char) (r : String) :
    (FP.fromStrExact cfg s : Res ConvErr (FP L P)) = .err ⟨r⟩ ↔
      ∃ t, Core s t ∧ Rejected L P true t r :=
  parseStr_err_iff hv true s r

example := C102_from_str_exact (cfg := debugCfg) (L := .i16) (P := 3) (by decide) "99.1234".toList
  "requested precision is too high"

/-- C102: the reasons exclude one another. -/
theorem C102_one_reason {cfg : Cfg} (hv : Valid cfg L P) (exact : Bool) (s t t' : List Char)
    (r r' : String) (h : Core s t) (h' : Core s t') (hr : Rejected L P exact t r)
    (hr' : Rejected L P exact t' r') : t = t' ∧ r = r' := by
  have e := core_iff.1 h
  have e' := core_iff.1 h'
  subst e
  subst e'
  have h1 := parseStr_of_rejected hv exact hr
  rw [parseStr_of_rejected hv exact hr'] at h1
  injection h1 with h1
  injection h1 with h1
  exact ⟨rfl, h1.symm⟩

example (h : ¬ Representable .i16 3 ((-33 : Int) : ℚ)) :=
  have hc : Core " -33\n".toList "-33".toList :=
    ⟨⟨[' '], ['\n'], by decide, by simp [whiteSpace], by simp [whiteSpace]⟩, by decide, by decide⟩
  have hr : Rejected .i16 3 false "-33".toList "too big number" :=
    .bigInteger (-33) (by decide)
      ⟨⟨some true, [3, 3], by simp, by decide, by decide⟩, by decide, by decide⟩ h
  C102_one_reason (cfg := debugCfg) (by decide) false " -33\n".toList _ _ _ _ hc hc hr hr
example : ¬ Representable .i16 3 ((-33 : Int) : ℚ) := by
  rw [representable_int]
  decide

/-- C102: `TryFrom` of an integer of any width fails with one message. -/
theorem C102_try_from_int {cfg : Cfg} (hv : Valid cfg L P) (n : Int) (e : ConvErr) :
    (FP.tryFromInt cfg n : Res ConvErr (FP L P)) = .err e ↔
      ¬ Representable L P n ∧ e = ⟨"too big number"⟩ := by
  rw [representable_int, tryFromInt_spec hv]
  by_cases h : Fits L.bits (n * 10 ^ P)
  · rw [if_pos h]; exact ⟨nofun, fun h' => absurd h h'.1⟩
  · rw [if_neg h]
    exact ⟨fun h' => ⟨h, by injection h' with h'; exact h'.symm⟩, fun h' => by rw [h'.2]⟩

example := C102_try_from_int (cfg := debugCfg) (L := .i16) (P := 3) (by decide) 33
  ⟨"too big number"⟩

/-- C102: `from_decimal` fails with "unsupported exponent" outside the exponents it takes and with
"too big mantissa" inside, wherever the power of ten it computes is one of the layout (the other
calls are the subject of C24). -/
theorem C102_from_decimal (cfg : Cfg) (m : BitVec L.bits) (e : Int)
    (hp : -(P : Int) ≤ e → e ≤ 10 → (10 : Int) ^ (e + P).toNat ≤ rawMax L) (r : ConvErr) :
    (FP.fromDecimal cfg m e : Res ConvErr (FP L P)) = .err r ↔
      ((e < -(P : Int) ∨ 10 < e) ∧ r = ⟨"unsupported exponent"⟩) ∨
      (-(P : Int) ≤ e ∧ e ≤ 10 ∧ ¬ Representable L P ((m.toInt : ℚ) * 10 ^ e) ∧
        r = ⟨"too big mantissa"⟩) := by
  by_cases he : e < -(P : Int) ∨ 10 < e
  · rw [C24_from_decimal_exponent cfg m e he]
    constructor
    · intro h; injection h with h; exact .inl ⟨he, h.symm⟩
    · rintro (h | h)
      · rw [h.2]
      · omega
  · push Not at he
    have hx := C24_from_decimal_partial cfg m e he (hp he.1 he.2)
    constructor
    · intro h
      have hn := hx.err_iff.1 ⟨r, h⟩
      rw [hx.2 hn] at h
      injection h with h
      exact .inr ⟨he.1, he.2, hn, h.symm⟩
    · rintro (h | h)
      · omega
      · rw [h.2.2.2]; exact hx.2 h.2.2.1

example := C102_from_decimal (L := .i64) (P := 3) debugCfg (-7) 5 (by decide) ⟨"too big mantissa"⟩

/-- C102: `TryFrom<f64>` fails with "not finite" on infinities and NaNs only, and on finite numbers
with "too big number" only. -/
theorem C102_try_from_f64 (cfg : Cfg) (hP : P ≤ 10 ^ 9) (f : BitVec 64) (e : ConvErr)
    (h : (FP.tryFromF64 cfg f : Res ConvErr (FP L P)) = .err e) :
    e = if f64Finite f then ⟨"too big number"⟩ else ⟨"not finite"⟩ := by
  by_cases hf : f64Finite f
  · rw [if_pos hf]
    obtain ⟨r, -, hr⟩ := tryFromF64_spec cfg L f hf hP
    rw [hr] at h
    unfold finish at h
    split at h
    · split at h <;> cases h
    · injection h with h; exact h.symm
  · rw [if_neg hf]
    rw [C40_not_finite cfg f hf] at h
    injection h with h; exact h.symm

example := C102_try_from_f64 (L := .i64) (P := 9) debugCfg (by norm_num) 0x7FEFFFFFFFFFFFFF ⟨"too big number"⟩
  (by decide +kernel)

/-- The hypotheses of C102: a text of each kind at three digits of `i16`. -/
example :
    (FP.fromStr debugCfg " 1x ".toList : Res ConvErr (FP .i16 3)) = .err ⟨"can't parse integer"⟩ ∧
    (FP.fromStr debugCfg "40000".toList : Res ConvErr (FP .i16 3)) =
      .err ⟨"can't parse integer"⟩ ∧
    (FP.fromStr debugCfg "-33".toList : Res ConvErr (FP .i16 3)) = .err ⟨"too big number"⟩ ∧
    (FP.fromStr debugCfg "40000.0".toList : Res ConvErr (FP .i16 3)) =
      .err ⟨"can't parse integral part"⟩ ∧
    (FP.fromStr debugCfg ".5".toList : Res ConvErr (FP .i16 3)) =
      .err ⟨"can't parse integral part"⟩ ∧
    (FP.fromStr debugCfg "1.5.2".toList : Res ConvErr (FP .i16 3)) =
      .err ⟨"can't parse fractional part: must contain digits only"⟩ ∧
    (FP.fromStrExact debugCfg "99.1234".toList : Res ConvErr (FP .i16 3)) =
      .err ⟨"requested precision is too high"⟩ ∧
    (FP.fromStr debugCfg "99.".toList : Res ConvErr (FP .i16 3)) =
      .err ⟨"can't parse fractional part"⟩ ∧
    (FP.fromStr debugCfg "99.1234".toList : Res ConvErr (FP .i16 3)) =
      .err ⟨"too big integral"⟩ ∧
    (FP.fromStr debugCfg "32.7675".toList : Res ConvErr (FP .i16 3)) =
      .err ⟨"too big number"⟩ := by decide +kernel

/-- The conditions themselves hold of such texts. -/
example : Rejected .i16 3 false "99.1234".toList "too big integral" := by
  refine .bigIntegral ['9', '9'] [1, 2, 3, 4] 99 (by decide)
    ⟨⟨none, [9, 9], by simp, by decide, by decide⟩, by decide, by decide⟩ (by simp) (by simp)
    (by simp) ?_
  rw [show ((99 : Int) : ℚ) = ((99 : Int) : ℚ) from rfl, representable_int]
  decide

example : Core " -33\n".toList "-33".toList :=
  ⟨⟨[' '], ['\n'], by decide, by simp [whiteSpace], by simp [whiteSpace]⟩, by decide, by decide⟩

end Fixnum
