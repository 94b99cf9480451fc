import Verif.StringsBasic
import Verif.Props.Division

/-! # What `parse_str` computes -/

namespace Fixnum

open Res Spec

variable {L : Layout} {P : Nat} {ε : Type}

/-! ## The text of a literal -/

theorem text_not_white (l : Literal) : ∀ c ∈ l.text, isWhitespace c = false := by
  intro c hc
  have hd : ∀ ds : List (Fin 10), c ∈ ds.map digit → isWhitespace c = false := by
    intro ds h
    obtain ⟨d, _, rfl⟩ := List.mem_map.1 h
    exact digit_not_white d
  unfold Literal.text at hc
  rw [List.mem_append, List.mem_append] at hc
  rcases hc with (hc | hc) | hc
  · revert hc
    rcases l.sign with _ | _ | _ <;> simp only [Literal.signText, List.not_mem_nil,
      List.mem_singleton, false_imp_iff] <;> rintro rfl <;> decide
  · exact hd _ hc
  · rcases hf : l.frac with _ | f <;> rw [hf] at hc
    · simp at hc
    · rw [List.mem_cons] at hc
      rcases hc with rfl | hc
      · decide
      · exact hd _ hc

theorem text_ne_nil {l : Literal} (h : l.WellFormed) : l.text ≠ [] := by
  intro h'
  unfold Literal.text at h'
  rw [List.append_eq_nil_iff, List.append_eq_nil_iff, List.map_eq_nil_iff] at h'
  exact h.1 h'.1.2

theorem strTrim_text {s : List Char} {l : Literal} (h : IsText s l) : strTrim s = l.text := by
  obtain ⟨hw, a, b, rfl, ha, hb⟩ := h
  refine strTrim_eq (fun c hc => (isWhitespace_iff c).2 (ha c hc))
    (fun c hc => (isWhitespace_iff c).2 (hb c hc)) (text_ne_nil hw) ?_ ?_
  · intro c hc; exact text_not_white l c (List.mem_of_head? hc)
  · intro c hc; exact text_not_white l c (List.mem_of_getLast? hc)

theorem isText_of_trim {s : List Char} {l : Literal} (hw : l.WellFormed)
    (h : strTrim s = l.text) : IsText s l := by
  obtain ⟨a, b, h1, h2, h3⟩ := strTrim_split s
  rw [h] at h1
  exact ⟨hw, a, b, h1, fun c hc => (isWhitespace_iff c).1 (h2 c hc),
    fun c hc => (isWhitespace_iff c).1 (h3 c hc)⟩

/-! ## The raw number a literal is read as -/

/-- The raw magnitude computed for `m` before the point and digits `f` after it. -/
def rawMag (P : Nat) (m : Nat) (f : List (Fin 10)) : Int :=
  (m : Int) * 10 ^ P + (if f.length ≤ P then (10 : Int) ^ (P - f.length) * (natOf f : Int)
    else (natOf (f.take P) : Int) + (if 5 ≤ (f.getD P 0).val then (1 : Int) else 0))

theorem OkOr.ok_iff {r : Res ConvErr (FP L P)} {z : Int} (h : OkOr r z) {x : FP L P} :
    r = .ok x ↔ value x = (z : ℚ) / 10 ^ P := by
  by_cases hf : Fits L.bits z
  · rw [h.1 hf]
    constructor
    · intro h'; cases h'; exact value_ofInt hf
    · intro h'; rw [← value_ofInt hf (P := P)] at h'; rw [value_inj h']
  · obtain ⟨e, he⟩ := h.2 hf
    rw [he]
    refine ⟨nofun, fun h' => absurd ?_ hf⟩
    rw [← representable_iff (P := P)]
    exact ⟨x, h'⟩

theorem OkOr.returns {r : Res ConvErr (FP L P)} {z : Int} (h : OkOr r z) :
    (∃ x, r = .ok x) ∨ ∃ e, r = .err e := by
  by_cases hf : Fits L.bits z
  · exact .inl ⟨_, h.1 hf⟩
  · exact .inr (h.2 hf)

theorem head_digits (d : Fin 10) (ds : List (Fin 10)) (t : List Char) (sg : Option Bool) :
    ∃ c, (idx (Literal.signText sg ++ (d :: ds).map digit ++ t) 0 : Res ε Char) = .ok c ∧
      (if c = '-' then (-1 : Int) else 1) = sgn sg := by
  rcases sg with _ | _ | _
  · exact ⟨digit d, rfl, if_neg (digit_ne (by decide) d)⟩
  · exact ⟨'+', rfl, rfl⟩
  · exact ⟨'-', rfl, rfl⟩

theorem parseStr_integer {cfg : Cfg} (hv : Valid cfg L P) (exact : Bool) {s : List Char}
    {sg : Option Bool} {i : List (Fin 10)} (hi : i ≠ [])
    (hs : strTrim s = Literal.signText sg ++ i.map digit) :
    OkOr (FP.parseStr cfg exact s : Res ConvErr (FP L P)) (sgn sg * (natOf i * 10 ^ P)) := by
  have hw := bits_pos L
  unfold FP.parseStr
  rw [hs]
  dsimp only
  rw [splitPoint_none.2 (point_not_mem sg i)]
  dsimp only
  rw [parseSigned_digits _ sg i hi, signed_eq]
  by_cases hf : Fits L.bits (sgn sg * natOf i)
  · rw [SInt.checked_fits hf, ofOption_some, ok_bind, tryFromInt_spec hv,
      toInt_ofInt_of_fits hw hf]
    rw [← mul_assoc]
    by_cases hr : Fits L.bits (sgn sg * natOf i * 10 ^ P)
    · rw [if_pos hr]; exact ⟨fun _ => rfl, fun h => absurd hr h⟩
    · rw [if_neg hr]; exact ⟨fun h => absurd h hr, fun _ => ⟨_, rfl⟩⟩
  · rw [SInt.checked_not hf, ofOption_none, err_bind]
    refine ⟨fun h => absurd (sgn_mul_fits sg (by positivity) ?_ h) hf, fun _ => ⟨_, rfl⟩⟩
    have : (1 : Int) ≤ 10 ^ P := one_le_pow₀ (by norm_num)
    have : (0 : Int) ≤ natOf i := by positivity
    nlinarith

theorem parseStr_frac {cfg : Cfg} (hv : Valid cfg L P) (exact : Bool) {s : List Char}
    {sg : Option Bool} {i f : List (Fin 10)} (hi : i ≠ []) (hf : f ≠ [])
    (hs : strTrim s = Literal.signText sg ++ i.map digit ++ '.' :: f.map digit) :
    (P < f.length ∧ (exact = true ∨ P = 0) →
      ∃ e, (FP.parseStr cfg exact s : Res ConvErr (FP L P)) = .err e) ∧
    (¬ (P < f.length ∧ (exact = true ∨ P = 0)) →
      OkOr (FP.parseStr cfg exact s : Res ConvErr (FP L P)) (sgn sg * rawMag P (natOf i) f)) := by
  have hw := bits_pos L
  have hmag : (natOf i : Int) ≤ rawMag P (natOf i) f := by
    unfold rawMag
    have : (1 : Int) ≤ 10 ^ P := one_le_pow₀ (by norm_num)
    have : (0 : Int) ≤ natOf i := by positivity
    have : (natOf i : Int) ≤ natOf i * 10 ^ P := by nlinarith
    have h0 : (0 : Int) ≤ 10 ^ (P - f.length) * natOf f := by positivity
    split
    · omega
    · split <;> omega
  unfold FP.parseStr
  rw [hs]
  dsimp only
  rw [splitPoint_some.2 ⟨rfl, point_not_mem sg i⟩]
  dsimp only
  rw [parseSigned_digits _ sg i hi, signed_eq]
  by_cases hfi : Fits L.bits (sgn sg * natOf i)
  swap
  · rw [SInt.checked_not hfi, ofOption_none, err_bind]
    exact ⟨fun _ => ⟨_, rfl⟩, fun _ =>
      ⟨fun h => absurd (sgn_mul_fits sg (by positivity) hmag h) hfi, fun _ => ⟨_, rfl⟩⟩⟩
  rw [SInt.checked_fits hfi, ofOption_some, ok_bind, all_digits, Bool.not_true,
    if_neg (by simp)]
  obtain ⟨d, ds, rfl⟩ : ∃ d ds, i = d :: ds := by
    cases i with
    | nil => exact absurd rfl hi
    | cons d ds => exact ⟨d, ds, rfl⟩
  obtain ⟨c, hc, hc'⟩ := head_digits (ε := ConvErr) d ds ('.' :: f.map digit) sg
  rw [hc, ok_bind, hc', List.length_map]
  by_cases hlen : P < f.length
  swap
  · rw [decide_eq_false hlen, Bool.and_false, Bool.and_false, if_neg (by simp), if_neg (by simp)]
    refine ⟨fun h => absurd h.1 hlen, fun _ => ?_⟩
    have := parseParts_spec hv exact sg (natOf (d :: ds)) f hf (by omega) false (by simp) hfi
    unfold rawMag
    rw [if_pos (by omega)]
    rw [if_neg (by simp), if_neg (by simp), add_zero] at this
    exact this
  rw [decide_eq_true hlen, Bool.and_true, Bool.and_true]
  cases exact with
  | true =>
    rw [if_pos rfl]
    exact ⟨fun _ => ⟨_, rfl⟩, fun h => absurd ⟨hlen, .inl rfl⟩ h⟩
  | false =>
    have hx : (idx (f.map digit) P : Res ConvErr Char) = .ok (digit (f.getD P 0)) := by
      unfold idx
      rw [List.getElem?_map, List.getElem?_eq_getElem hlen, List.getD_eq_getElem _ _ hlen]
      rfl
    rw [if_neg (by simp), Bool.not_false, if_pos rfl, hx, ok_bind, ← List.map_take, digit_toNat]
    by_cases hP : P = 0
    · refine ⟨fun _ => ?_, fun h => absurd ⟨hlen, .inr hP⟩ h⟩
      subst hP
      exact parseParts_nil hv _ _ _ _
    · refine ⟨fun h => by simp [hP] at h, fun _ => ?_⟩
      have hl : (f.take P).length = P := by rw [List.length_take]; omega
      have := parseParts_spec hv false sg (natOf (d :: ds)) (f.take P)
        (by intro h; rw [h] at hl; simp at hl; omega) (by omega)
        (decide (53 ≤ 48 + (f.getD P 0).val)) (fun _ => ⟨rfl, hl⟩) hfi
      rw [hl, Nat.sub_self, pow_zero, one_mul] at this
      unfold rawMag
      rw [if_neg (show ¬ f.length ≤ P by omega), ← add_assoc]
      by_cases h5 : 5 ≤ (f.getD P 0).val
      · rw [decide_eq_true (by omega), if_pos rfl, if_pos rfl] at this
        rw [if_pos h5, if_pos (by omega)]
        exact this
      · rw [decide_eq_false (by omega), if_neg (by simp), if_neg (by simp)] at this
        rw [if_neg h5, if_neg (by omega)]
        exact this

/-- Text that is not a literal is rejected. -/
theorem parseStr_reject {cfg : Cfg} (hv : Valid cfg L P) (exact : Bool) {s : List Char}
    (h : ¬ ∃ l, IsText s l) : ∃ e, (FP.parseStr cfg exact s : Res ConvErr (FP L P)) = .err e := by
  unfold FP.parseStr
  dsimp only
  rcases hsp : splitPoint (strTrim s) with _ | ⟨a, b⟩
  · dsimp only
    rcases hp : parseSigned L.bits (strTrim s) with _ | v
    · rw [ofOption_none, err_bind]; exact ⟨_, rfl⟩
    · obtain ⟨sg, ds, h1, h2⟩ := parseSigned_shape hp
      exact absurd ⟨⟨sg, ds, none⟩, isText_of_trim ⟨h1, by simp⟩ (by rw [h2]; simp [Literal.text])⟩ h
  · dsimp only
    obtain ⟨hs, hn⟩ := splitPoint_some.1 hsp
    rcases hp : parseSigned L.bits a with _ | v
    · rw [ofOption_none, err_bind]; exact ⟨_, rfl⟩
    · obtain ⟨sg, ds, h1, h2⟩ := parseSigned_shape hp
      rw [ofOption_some, ok_bind]
      by_cases hb : b.all isDigit10 = true
      swap
      · rw [Bool.not_eq_true] at hb
        rw [hb, Bool.not_false, if_pos rfl]; exact ⟨_, rfl⟩
      obtain ⟨f, rfl⟩ := digits_of b hb
      have hf : f = [] := by
        by_contra hf
        exact h ⟨⟨sg, ds, some f⟩, isText_of_trim ⟨h1, by simpa using hf⟩
          (by rw [hs, h2]; simp [Literal.text])⟩
      subst hf
      rw [hb, Bool.not_true, if_neg (by simp), List.map_nil, List.length_nil]
      rw [decide_eq_false (Nat.not_lt_zero P), Bool.and_false, Bool.and_false]
      obtain ⟨d, ds', rfl⟩ : ∃ d ds', ds = d :: ds' := by
        cases ds with
        | nil => exact absurd rfl h1
        | cons d ds => exact ⟨d, ds, rfl⟩
      obtain ⟨c, hc, _⟩ := head_digits (ε := ConvErr) d ds' ('.' :: [].map digit) sg
      rw [hs, h2, hc, ok_bind, if_neg (by simp), if_neg (by simp)]
      exact parseParts_nil hv _ _ _ _

/-- Both cases of a literal together. -/
theorem parseStr_text {cfg : Cfg} (hv : Valid cfg L P) (exact : Bool) {s : List Char}
    {l : Literal} (h : IsText s l) :
    (P < l.fracDigits.length ∧ (exact = true ∨ P = 0) →
      ∃ e, (FP.parseStr cfg exact s : Res ConvErr (FP L P)) = .err e) ∧
    (¬ (P < l.fracDigits.length ∧ (exact = true ∨ P = 0)) →
      OkOr (FP.parseStr cfg exact s : Res ConvErr (FP L P))
        (sgn l.sign * rawMag P (natOf l.int) l.fracDigits)) := by
  have hs := strTrim_text h
  obtain ⟨sg, i, f⟩ := l
  unfold Literal.text at hs
  rcases f with _ | f
  · refine ⟨fun h => by simp [Literal.fracDigits] at h, fun _ => ?_⟩
    dsimp only at hs
    rw [List.append_nil] at hs
    have := parseStr_integer hv exact h.1.1 hs
    simpa [rawMag, Literal.fracDigits, natOf] using this
  · have hf : f ≠ [] := by
      intro e; apply h.1.2; rw [e]
    exact parseStr_frac hv exact h.1.1 hf hs

/-! ## The link to rational numbers -/

theorem natOf_split {f : List (Fin 10)} (h : P < f.length) :
    ∃ k r : Nat, (f.getD P 0).val ≤ 9 ∧ r < 10 ^ k ∧ f.length = P + (k + 1) ∧
      natOf f = natOf (f.take P) * 10 ^ (k + 1) + ((f.getD P 0).val * 10 ^ k + r) := by
  have e : f = f.take P ++ f.getD P 0 :: f.drop (P + 1) := by
    rw [List.getD_eq_getElem _ _ h, List.getElem_cons_drop, List.take_append_drop]
  refine ⟨(f.drop (P + 1)).length, natOf (f.drop (P + 1)), by have := (f.getD P 0).2; omega, natOf_lt _, ?_, ?_⟩
  · rw [List.length_drop]; omega
  · conv_lhs => rw [e]
    rw [natOf_append, natOf_cons, List.length_cons]

theorem rawMag_exact (m : Nat) {f : List (Fin 10)} (h : f.length ≤ P) :
    (rawMag P m f : ℚ) / 10 ^ P = m + (natOf f : ℚ) / 10 ^ f.length := by
  unfold rawMag
  rw [if_pos h]
  have hp := ten_pow_ne P
  have hf := ten_pow_ne f.length
  have : (10 : ℚ) ^ P = 10 ^ (P - f.length) * 10 ^ f.length := by
    rw [← pow_add, Nat.sub_add_cancel h]
  push_cast
  rw [div_eq_iff hp, add_mul]
  congr 1
  rw [this]
  field_simp

theorem rawMag_round (m : Nat) (f : List (Fin 10)) :
    (rawMag P m f : ℚ) / 10 ^ P = roundTo P .nearest (m + (natOf f : ℚ) / 10 ^ f.length) := by
  by_cases h : f.length ≤ P
  · have e := rawMag_exact (P := P) m h
    rw [← e]
    unfold roundTo
    rw [div_mul_cancel₀ _ (ten_pow_ne P), round_int]
  · obtain ⟨k, r, hd, hr, hl, hn⟩ := natOf_split (not_le.1 h)
    unfold roundTo
    congr 2
    unfold rawMag
    rw [if_neg h]
    generalize (f.getD P 0).val = d at *
    generalize natOf (f.take P) = t at *
    have hk : (0 : ℚ) < 10 ^ k := ten_pow_pos k
    have hpp := ten_pow_pos P
    have hrq : (r : ℚ) < 10 ^ k := by exact_mod_cast hr
    have hr0 : (0 : ℚ) ≤ r := by positivity
    have e : ((m : ℚ) + (natOf f : ℚ) / 10 ^ f.length) * 10 ^ P =
        ((m * 10 ^ P + t : Int) : ℚ) + ((d : ℚ) * 10 ^ k + r) / 10 ^ (k + 1) := by
      rw [hn, hl, pow_add]
      push_cast
      field_simp
      ring
    have hN : (0 : ℚ) ≤ ((m * 10 ^ P + t : Int) : ℚ) := by positivity
    rw [e]
    simp only [Spec.round, nearest]
    have hnn : (0 : ℚ) ≤ ((m * 10 ^ P + t : Int) : ℚ) + ((d : ℚ) * 10 ^ k + r) / 10 ^ (k + 1) := by
      positivity
    rw [if_pos hnn]
    symm
    have hd9 : (d : ℚ) ≤ 9 := by exact_mod_cast hd
    rw [Int.floor_eq_iff, pow_succ]
    push_cast
    split
    · rename_i h5
      have : (5 : ℚ) ≤ d := by exact_mod_cast h5
      have h1 : (1 / 2 : ℚ) ≤ (d * 10 ^ k + r) / (10 ^ k * 10) := by
        rw [le_div_iff₀ (by positivity)]; nlinarith
      have h2 : (d * 10 ^ k + r) / (10 ^ k * 10) < (1 : ℚ) := by
        rw [div_lt_iff₀ (by positivity)]; nlinarith
      constructor <;> linarith
    · rename_i h5
      have : (d : ℚ) ≤ 4 := by exact_mod_cast (by omega : d ≤ 4)
      have h1 : (0 : ℚ) ≤ (d * 10 ^ k + r) / (10 ^ k * 10) := by positivity
      have h2 : (d * 10 ^ k + r) / (10 ^ k * 10) < (1 / 2 : ℚ) := by
        rw [div_lt_iff₀ (by positivity)]; nlinarith
      constructor <;> linarith

theorem denote_eq (l : Literal) : l.denote = sgn l.sign * l.magnitude := by
  unfold Literal.denote sgn
  split <;> simp

theorem rawMag_denote (l : Literal) (h : l.fracDigits.length ≤ P) :
    ((sgn l.sign * rawMag P (natOf l.int) l.fracDigits : Int) : ℚ) / 10 ^ P = l.denote := by
  rw [denote_eq]
  unfold Literal.magnitude
  rw [← rawMag_exact (P := P) _ h]
  push_cast
  rw [mul_div_assoc]

theorem rawMag_roundTo (l : Literal) :
    ((sgn l.sign * rawMag P (natOf l.int) l.fracDigits : Int) : ℚ) / 10 ^ P =
      roundTo P .nearest l.denote := by
  rw [denote_eq]
  push_cast
  rw [mul_div_assoc, rawMag_round]
  rcases sgn_cases l.sign with e | e <;> rw [e]
  · push_cast; rw [one_mul, one_mul]; rfl
  · push_cast; rw [neg_one_mul, neg_one_mul, roundTo_neg]; rfl

end Fixnum
