import Verif.Strings
import Verif.TextSpec
import Verif.IntegralBasic

/-! # Facts about the string functions used by the parser -/

namespace Fixnum

open Res Spec

variable {L : Layout} {P : Nat} {ε : Type}

/-! ## Characters -/

theorem isWhitespace_iff (c : Char) : isWhitespace c = true ↔ c.toNat ∈ whiteSpace := by
  unfold isWhitespace whiteSpace
  simp only [Bool.or_eq_true, Bool.and_eq_true, decide_eq_true_eq, beq_iff_eq, List.mem_cons,
    List.not_mem_nil, or_false]
  generalize c.toNat = n
  omega

theorem digit_toNat (d : Fin 10) : (digit d).toNat = 48 + d := by
  revert d; decide

theorem isDigit10_digit (d : Fin 10) : isDigit10 (digit d) = true := by
  revert d; decide

theorem digit_of (c : Char) (h : isDigit10 c = true) : ∃ d, c = digit d := by
  unfold isDigit10 at h
  simp only [Bool.and_eq_true, decide_eq_true_eq] at h
  refine ⟨⟨c.toNat - 48, by omega⟩, ?_⟩
  rw [← Char.toNat_inj, digit_toNat]
  show c.toNat = 48 + (c.toNat - 48)
  omega

theorem digit_inj {d e : Fin 10} (h : digit d = digit e) : d = e := by
  have := congrArg Char.toNat h
  rw [digit_toNat, digit_toNat] at this
  omega

theorem digit_ne {c : Char} (h : isDigit10 c = false) (d : Fin 10) : digit d ≠ c := by
  intro h'
  rw [← h', isDigit10_digit] at h
  cases h

theorem digit_not_white (d : Fin 10) : isWhitespace (digit d) = false := by
  revert d; decide

theorem digits_of (s : List Char) (h : s.all isDigit10 = true) :
    ∃ ds : List (Fin 10), s = ds.map digit := by
  induction s with
  | nil => exact ⟨[], rfl⟩
  | cons c s ih =>
    rw [List.all_cons, Bool.and_eq_true] at h
    obtain ⟨d, rfl⟩ := digit_of c h.1
    obtain ⟨ds, rfl⟩ := ih h.2
    exact ⟨d :: ds, rfl⟩

theorem all_digits (ds : List (Fin 10)) : (ds.map digit).all isDigit10 = true := by
  rw [List.all_map, List.all_eq_true]
  intro d _
  exact isDigit10_digit d

theorem digitsValue_digits (ds : List (Fin 10)) : digitsValue (ds.map digit) = natOf ds := by
  unfold digitsValue natOf
  rw [List.foldl_map]
  congr 1
  funext n d
  rw [digit_toNat, Nat.add_sub_cancel_left]

/-! ## `natOf` -/

theorem natOf_foldl (ds : List (Fin 10)) (n : Nat) :
    ds.foldl (fun (n : Nat) (d : Fin 10) => 10 * n + d.val) n = n * 10 ^ ds.length + natOf ds := by
  unfold natOf
  induction ds generalizing n with
  | nil => simp
  | cons d ds ih =>
    rw [List.foldl_cons, List.foldl_cons, ih, ih (10 * 0 + d), List.length_cons, pow_succ]
    ring

theorem natOf_cons (d : Fin 10) (ds : List (Fin 10)) :
    natOf (d :: ds) = d * 10 ^ ds.length + natOf ds := by
  conv_lhs => unfold natOf
  rw [List.foldl_cons, natOf_foldl, Nat.mul_zero, Nat.zero_add]

theorem natOf_append (a b : List (Fin 10)) :
    natOf (a ++ b) = natOf a * 10 ^ b.length + natOf b := by
  conv_lhs => unfold natOf
  rw [List.foldl_append, natOf_foldl]
  rfl

theorem natOf_lt (ds : List (Fin 10)) : natOf ds < 10 ^ ds.length := by
  induction ds with
  | nil => simp [natOf]
  | cons d ds ih =>
    rw [natOf_cons, List.length_cons, pow_succ]
    have := d.2
    have : (d : Nat) * 10 ^ ds.length ≤ 9 * 10 ^ ds.length := Nat.mul_le_mul_right _ (by omega)
    omega

/-! ## `trim` -/

theorem dropWhile_all {α : Type} {p : α → Bool} {a b : List α} (h : ∀ c ∈ a, p c = true) :
    (a ++ b).dropWhile p = b.dropWhile p := by
  induction a with
  | nil => rfl
  | cons c a ih =>
    rw [List.cons_append, List.dropWhile_cons, if_pos (h c (by simp))]
    exact ih fun d hd => h d (by simp [hd])

/-- Trimming text that neither starts nor ends with white space. -/
theorem strTrim_eq {a t b : List Char} (ha : ∀ c ∈ a, isWhitespace c = true)
    (hb : ∀ c ∈ b, isWhitespace c = true) (ht : t ≠ [])
    (h1 : ∀ c, t.head? = some c → isWhitespace c = false)
    (h2 : ∀ c, t.getLast? = some c → isWhitespace c = false) : strTrim (a ++ t ++ b) = t := by
  have key : ∀ u v : List Char, u ≠ [] → (∀ c, u.head? = some c → isWhitespace c = false) →
      (u ++ v).dropWhile isWhitespace = u ++ v := by
    intro u v hu h
    cases u with
    | nil => exact absurd rfl hu
    | cons c u =>
      rw [List.cons_append, List.dropWhile_cons, if_neg (by rw [h c rfl]; simp)]
  unfold strTrim
  rw [List.append_assoc, dropWhile_all ha, key t b ht h1, List.reverse_append,
    dropWhile_all (by simpa using hb)]
  have := key t.reverse [] (by simpa using ht) (by
    intro c hc; rw [List.head?_reverse] at hc; exact h2 c hc)
  rw [List.append_nil] at this
  rw [this, List.reverse_reverse]

theorem takeWhile_all {α : Type} (p : α → Bool) (l : List α) :
    ∀ c ∈ l.takeWhile p, p c = true := by
  have := List.all_takeWhile (p := p) (l := l)
  rwa [List.all_eq_true] at this

/-- What `trim` removes is white space. -/
theorem strTrim_split (s : List Char) : ∃ a b, s = a ++ strTrim s ++ b ∧
    (∀ c ∈ a, isWhitespace c = true) ∧ ∀ c ∈ b, isWhitespace c = true := by
  unfold strTrim
  generalize hu : s.dropWhile isWhitespace = u
  refine ⟨s.takeWhile isWhitespace, (u.reverse.takeWhile isWhitespace).reverse, ?_, ?_, ?_⟩
  · have h1 := List.takeWhile_append_dropWhile (p := isWhitespace) (l := s)
    have h2 := List.takeWhile_append_dropWhile (p := isWhitespace) (l := u.reverse)
    have h3 := congrArg List.reverse h2
    rw [List.reverse_append, List.reverse_reverse] at h3
    rw [List.append_assoc, h3, ← hu, h1]
  · exact takeWhile_all _ _
  · intro c hc
    rw [List.mem_reverse] at hc
    exact takeWhile_all _ _ c hc

/-! ## `split_once` -/

theorem splitPoint_none {s : List Char} : splitPoint s = none ↔ '.' ∉ s := by
  induction s with
  | nil => simp [splitPoint]
  | cons c s ih =>
    unfold splitPoint
    split
    · rename_i h; simp [h]
    · rename_i h
      rw [Option.map_eq_none_iff, ih, List.mem_cons, not_or]
      exact ⟨fun h' => ⟨fun e => h e.symm, h'⟩, fun h' => h'.2⟩

theorem splitPoint_some {s a b : List Char} :
    splitPoint s = some (a, b) ↔ s = a ++ '.' :: b ∧ '.' ∉ a := by
  induction s generalizing a b with
  | nil => simp [splitPoint]
  | cons c s ih =>
    unfold splitPoint
    split
    · rename_i h
      subst h
      constructor
      · intro h; cases h; simp
      · rintro ⟨h1, h2⟩
        cases a with
        | nil => rw [List.nil_append, List.cons.injEq] at h1; rw [h1.2]
        | cons d a =>
          rw [List.cons_append, List.cons.injEq] at h1
          rw [← h1.1] at h2; simp at h2
    · rename_i h
      rw [Option.map_eq_some_iff]
      constructor
      · rintro ⟨⟨x, y⟩, h1, h2⟩
        obtain ⟨h3, h4⟩ := ih.1 h1
        rw [Prod.mk.injEq] at h2
        obtain ⟨rfl, rfl⟩ := h2
        refine ⟨by rw [h3, List.cons_append], ?_⟩
        rw [List.mem_cons, not_or]
        exact ⟨fun e => h e.symm, h4⟩
      · rintro ⟨h1, h2⟩
        cases a with
        | nil =>
          rw [List.nil_append, List.cons.injEq] at h1
          exact absurd h1.1 h
        | cons d a =>
          rw [List.cons_append, List.cons.injEq] at h1
          obtain ⟨rfl, rfl⟩ := h1
          rw [List.mem_cons, not_or] at h2
          exact ⟨(a, b), ih.2 ⟨rfl, h2.2⟩, rfl⟩

/-! ## Integers -/

/-- The number written by a sign and digits. -/
def signed (sg : Option Bool) (m : Int) : Int := if sg = some true then -m else m

theorem parseMagnitude_digits (w : Nat) (n : Bool) (ds : List (Fin 10)) (h : ds ≠ []) :
    parseMagnitude w n (ds.map digit) =
      SInt.checked w (if n = true then -(natOf ds : Int) else natOf ds) := by
  unfold parseMagnitude
  rw [if_neg, digitsValue_digits]
  rw [all_digits]
  simp [h]

theorem parseMagnitude_shape {w : Nat} {n : Bool} {s : List Char} {v : BitVec w}
    (h : parseMagnitude w n s = some v) : ∃ ds : List (Fin 10), ds ≠ [] ∧ s = ds.map digit := by
  unfold parseMagnitude at h
  split at h
  · cases h
  · rename_i hc
    simp only [Bool.or_eq_true, List.isEmpty_iff, Bool.not_eq_true', not_or,
      Bool.not_eq_false] at hc
    obtain ⟨ds, rfl⟩ := digits_of s hc.2
    refine ⟨ds, ?_, rfl⟩
    rintro rfl
    exact hc.1 rfl

/-- Parsing a sign and digits. -/
theorem parseSigned_digits (w : Nat) (sg : Option Bool) (ds : List (Fin 10)) (h : ds ≠ []) :
    parseSigned w (Literal.signText sg ++ ds.map digit) =
      SInt.checked w (signed sg (natOf ds)) := by
  rcases sg with _ | _ | _
  · rw [Literal.signText, List.nil_append]
    cases ds with
    | nil => exact absurd rfl h
    | cons d ds =>
      have h1 : digit d ≠ '+' := digit_ne (by decide) d
      have h2 : digit d ≠ '-' := digit_ne (by decide) d
      have hm := parseMagnitude_digits w false (d :: ds) h
      rw [if_neg (by simp)] at hm
      show _ = SInt.checked w (natOf (d :: ds))
      rw [← hm, List.map_cons]
      generalize digit d = c at *
      unfold parseSigned
      split
      · rename_i h3; rw [List.cons.injEq] at h3; exact absurd h3.1 h1
      · rename_i h3; rw [List.cons.injEq] at h3; exact absurd h3.1 h2
      · rfl
  · exact parseMagnitude_digits w false ds h
  · exact parseMagnitude_digits w true ds h

/-- Only a sign and digits are parsed. -/
theorem parseSigned_shape {w : Nat} {s : List Char} {v : BitVec w}
    (h : parseSigned w s = some v) :
    ∃ sg, ∃ ds : List (Fin 10), ds ≠ [] ∧ s = Literal.signText sg ++ ds.map digit := by
  unfold parseSigned at h
  split at h
  · obtain ⟨ds, h1, h2⟩ := parseMagnitude_shape h
    exact ⟨some false, ds, h1, by rw [h2]; rfl⟩
  · obtain ⟨ds, h1, h2⟩ := parseMagnitude_shape h
    exact ⟨some true, ds, h1, by rw [h2]; rfl⟩
  · obtain ⟨ds, h1, h2⟩ := parseMagnitude_shape h
    exact ⟨none, ds, h1, by rw [h2]; rfl⟩

theorem parseSigned_nil (w : Nat) : parseSigned w [] = none := rfl

theorem point_not_mem (sg : Option Bool) (ds : List (Fin 10)) :
    '.' ∉ Literal.signText sg ++ ds.map digit := by
  rw [List.mem_append, not_or]
  constructor
  · rcases sg with _ | _ | _ <;> decide
  · intro h
    obtain ⟨d, _, hd⟩ := List.mem_map.1 h
    exact digit_ne (by decide) d hd

/-! ## `parse_str` -/

theorem debugAssert_true (cfg : Cfg) : (debugAssert cfg true : Res ε Unit) = .ok () := by
  unfold debugAssert; simp

/-- The sign as a number. -/
def sgn (sg : Option Bool) : Int := if sg = some true then -1 else 1

theorem signed_eq (sg : Option Bool) (m : Int) : signed sg m = sgn sg * m := by
  unfold signed sgn; split <;> simp

theorem sgn_cases (sg : Option Bool) : sgn sg = 1 ∨ sgn sg = -1 := by
  unfold sgn; split <;> simp

theorem sgn_mul_fits {w : Nat} (sg : Option Bool) {m n : Int} (h0 : 0 ≤ m) (h : m ≤ n)
    (hf : Fits w (sgn sg * n)) : Fits w (sgn sg * m) := by
  unfold Fits at *
  have : (0:Int) < 2 ^ (w - 1) := by positivity
  unfold iMin iMax at *
  obtain ⟨h1, h2⟩ := hf
  rcases sgn_cases sg with e | e <;> rw [e] at h1 h2 ⊢ <;> constructor <;> linarith

theorem sgn_fits (sg : Option Bool) {m : Int} (h : |m| ≤ rawMax L) : Fits L.bits (sgn sg * m) := by
  rw [fits_half]
  rw [rawMax_half] at h
  have := abs_le.1 h
  rcases sgn_cases sg with e | e <;> rw [e] <;> constructor <;> linarith

/-- The error message depends on the step that fails; `OkOr r z` says the result is the raw value
`z` if it fits and some error otherwise. -/
def OkOr (r : Res ConvErr (FP L P)) (z : Int) : Prop :=
  (Fits L.bits z → r = .ok ⟨BitVec.ofInt _ z⟩) ∧ (¬ Fits L.bits z → ∃ e, r = .err e)

/-- The same with the error message. -/
def OkOrErr (r : Res ConvErr (FP L P)) (z : Int) (e : ConvErr) : Prop :=
  (Fits L.bits z → r = .ok ⟨BitVec.ofInt _ z⟩) ∧ (¬ Fits L.bits z → r = .err e)

/-- The message where the sum of both parts does not fit. -/
def bigReason (L : Layout) (P : Nat) (n : Int) : ConvErr :=
  if Fits L.bits (n * 10 ^ P) then ⟨"too big number"⟩ else ⟨"too big integral"⟩

theorem parseParts_reason {cfg : Cfg} (hv : Valid cfg L P) (exact : Bool) (sg : Option Bool)
    (m : Nat) (f : List (Fin 10)) (hf : f ≠ []) (hlen : f.length ≤ P) (round : Bool)
    (hr : round = true → exact = false ∧ f.length = P)
    (hi : Fits L.bits (sgn sg * m)) :
    OkOrErr (FP.parseParts cfg exact (BitVec.ofInt L.bits (sgn sg * m)) (f.map digit)
        (BitVec.ofInt _ (sgn sg)) (if round = true then some (BitVec.ofInt _ (sgn sg)) else none) :
          Res ConvErr (FP L P))
      (sgn sg * (m * 10 ^ P + 10 ^ (P - f.length) * natOf f + if round = true then 1 else 0))
      (bigReason L P (sgn sg * m)) := by
  have hw := bits_pos L
  have hM := hv.1
  have hc := coef_toInt hv
  have hexp : (10 : Int) ^ f.length ≤ 10 ^ P := pow_le_pow_right₀ (by norm_num) hlen
  have hep : (0 : Int) < 10 ^ f.length := by positivity
  have hpp : (0 : Int) < 10 ^ P := by positivity
  have hsp : (10 : Int) ^ P = 10 ^ (P - f.length) * 10 ^ f.length := by
    rw [← pow_add, Nat.sub_add_cancel hlen]
  have hfe : Fits L.bits (10 ^ f.length) := by
    have := sgn_fits (L := L) none (m := 10 ^ f.length) (by rw [abs_of_pos hep]; omega)
    simpa [sgn] using this
  have hten : (BitVec.ofInt L.bits 10).toInt = 10 := by
    apply toInt_ofInt_of_fits hw
    have := half_pos L; rw [fits_half]; omega
  have hnf : (natOf f : Int) < 10 ^ f.length := by exact_mod_cast natOf_lt f
  have hnf0 : (0 : Int) ≤ natOf f := by positivity
  have hfn : Fits L.bits (natOf f : Int) := by
    have := sgn_fits (L := L) none (m := natOf f) (by rw [abs_of_nonneg hnf0]; omega)
    simpa [sgn] using this
  have hk0 : (0 : Int) < 10 ^ (P - f.length) := by positivity
  -- the fraction
  have hq : (10 : Int) ^ (P - f.length) * natOf f + (10 : Int) ^ (P - f.length) ≤ 10 ^ P := by
    rw [hsp]; nlinarith
  have hq0 : (0 : Int) ≤ 10 ^ (P - f.length) * natOf f := by positivity
  have hfs : Fits L.bits (sgn sg) := by
    have := sgn_fits (L := L) sg (m := 1) (by rw [abs_one]; omega)
    rwa [mul_one] at this
  have hsc : Fits L.bits (sgn sg * 10 ^ P) := sgn_fits sg (by rw [abs_of_pos hpp]; exact hM)
  have hdiv : (sgn sg * 10 ^ P).tdiv (10 ^ f.length) = sgn sg * 10 ^ (P - f.length) := by
    rw [hsp, ← mul_assoc, Int.mul_tdiv_cancel _ hep.ne']
  have hsd : Fits L.bits (sgn sg * 10 ^ (P - f.length)) :=
    sgn_mul_fits sg hk0.le (by nlinarith) hsc
  have hsn : Fits L.bits (sgn sg * 10 ^ (P - f.length) * natOf f) := by
    rw [mul_assoc]; exact sgn_mul_fits sg hq0 (by omega) hsc
  unfold FP.parseParts
  rw [coef_spec hv, ok_bind]
  unfold SInt.pow
  rw [hten, List.length_map, SInt.arith_fits cfg hfe, ok_bind, hc, toInt_ofInt_of_fits hw hfe,
    decide_eq_false (not_lt.2 hexp), Bool.and_false, if_neg (by simp), decide_eq_true hexp,
    debugAssert_true, ok_bind]
  have hp := parseSigned_digits L.bits none f hf
  rw [Literal.signText, List.nil_append, signed_eq, show sgn none = 1 from rfl, one_mul,
    SInt.checked_fits hfn] at hp
  rw [hp, ofOption_some, ok_bind]
  unfold SInt.checkedMul
  rw [hc, toInt_ofInt_of_fits hw hi]
  by_cases hI : Fits L.bits (sgn sg * m * 10 ^ P)
  swap
  · rw [SInt.checked_not hI, ofOption_none, err_bind]
    refine ⟨fun h => absurd ?_ hI, fun _ => by rw [bigReason, if_neg hI]⟩
    rw [mul_assoc]
    refine sgn_mul_fits sg (by positivity) ?_ h
    split <;> omega
  rw [SInt.checked_fits hI, ofOption_some, ok_bind]
  unfold SInt.mul SInt.div
  rw [hc, toInt_ofInt_of_fits hw hfs, SInt.arith_fits cfg hsc, ok_bind, toInt_ofInt_of_fits hw hsc,
    toInt_ofInt_of_fits hw hfe, if_neg hep.ne', hdiv, if_pos hsd, ok_bind,
    toInt_ofInt_of_fits hw hsd, toInt_ofInt_of_fits hw hfn, SInt.arith_fits cfg hsn, ok_bind]
  have fin : ∀ r : Int, Fits L.bits (sgn sg * 10 ^ (P - f.length) * natOf f + sgn sg * r) →
      OkOrErr ((ofOption (⟨"too big number"⟩ : ConvErr) (SInt.checkedAdd
        (BitVec.ofInt L.bits (sgn sg * m * 10 ^ P))
        (BitVec.ofInt L.bits (sgn sg * 10 ^ (P - f.length) * natOf f + sgn sg * r))) >>= fun r =>
          .ok (FP.fromBits r)) : Res ConvErr (FP L P))
        (sgn sg * (m * 10 ^ P + 10 ^ (P - f.length) * natOf f + r))
        (bigReason L P (sgn sg * m)) := by
    intro r hr
    have e : sgn sg * m * 10 ^ P + (sgn sg * 10 ^ (P - f.length) * natOf f + sgn sg * r) =
        sgn sg * (m * 10 ^ P + 10 ^ (P - f.length) * natOf f + r) := by ring
    unfold SInt.checkedAdd
    rw [toInt_ofInt_of_fits hw hI, toInt_ofInt_of_fits hw hr, e]
    constructor
    · intro h
      rw [SInt.checked_fits h, ofOption_some, ok_bind]; rfl
    · intro h
      rw [SInt.checked_not h, ofOption_none, err_bind, bigReason, if_pos hI]
  cases round with
  | false =>
    have := fin 0 (by rw [mul_zero, add_zero]; exact hsn)
    rw [mul_zero, add_zero] at this
    exact this
  | true =>
    obtain ⟨hx, hl⟩ := hr rfl
    have hfr : Fits L.bits (sgn sg * 10 ^ (P - f.length) * natOf f + sgn sg) := by
      have : sgn sg * 10 ^ (P - f.length) * natOf f + sgn sg =
        sgn sg * (10 ^ (P - f.length) * natOf f + 1) := by ring
      rw [this]
      exact sgn_mul_fits sg (by omega) (by omega) hsc
    have := fin 1 (by rw [mul_one]; exact hfr)
    rw [mul_one] at this
    rw [hx]
    simp only [if_true, Bool.not_false, debugAssert_true, ok_bind]
    unfold SInt.add
    rw [toInt_ofInt_of_fits hw hsn, toInt_ofInt_of_fits hw hfs, SInt.arith_fits cfg hfr, ok_bind]
    exact this

theorem parseParts_spec {cfg : Cfg} (hv : Valid cfg L P) (exact : Bool) (sg : Option Bool)
    (m : Nat) (f : List (Fin 10)) (hf : f ≠ []) (hlen : f.length ≤ P) (round : Bool)
    (hr : round = true → exact = false ∧ f.length = P)
    (hi : Fits L.bits (sgn sg * m)) :
    OkOr (FP.parseParts cfg exact (BitVec.ofInt L.bits (sgn sg * m)) (f.map digit)
        (BitVec.ofInt _ (sgn sg)) (if round = true then some (BitVec.ofInt _ (sgn sg)) else none) :
          Res ConvErr (FP L P))
      (sgn sg * (m * 10 ^ P + 10 ^ (P - f.length) * natOf f + if round = true then 1 else 0)) :=
  have h := parseParts_reason hv exact sg m f hf hlen round hr hi
  ⟨h.1, fun hn => ⟨_, h.2 hn⟩⟩

theorem parseParts_empty {cfg : Cfg} (hv : Valid cfg L P) (exact : Bool) (i s : BitVec L.bits)
    (r : Option (BitVec L.bits)) :
    (FP.parseParts cfg exact i [] s r : Res ConvErr (FP L P)) =
      .err ⟨"can't parse fractional part"⟩ := by
  have hw := bits_pos L
  have hc := coef_toInt hv
  have h1 : (1 : Int) ≤ 10 ^ P := one_le_pow₀ (by norm_num)
  have hf1 : Fits L.bits (1 : Int) := by have := half_pos L; rw [fits_half]; omega
  unfold FP.parseParts
  rw [coef_spec hv, ok_bind]
  unfold SInt.pow
  rw [List.length_nil, pow_zero, SInt.arith_fits cfg hf1, ok_bind, hc, toInt_ofInt_of_fits hw hf1,
    decide_eq_false (not_lt.2 h1), Bool.and_false, if_neg (by simp), decide_eq_true h1,
    debugAssert_true, ok_bind, parseSigned_nil, ofOption_none, err_bind]

theorem parseParts_nil {cfg : Cfg} (hv : Valid cfg L P) (exact : Bool) (i s : BitVec L.bits)
    (r : Option (BitVec L.bits)) :
    ∃ e, (FP.parseParts cfg exact i [] s r : Res ConvErr (FP L P)) = .err e :=
  ⟨_, parseParts_empty hv exact i s r⟩

end Fixnum
