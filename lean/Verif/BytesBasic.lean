import Verif.Bytes
import Verif.DisplayExact

/-! # Lemmas on bytes: ASCII text, the buffer invariant -/

namespace Fixnum

open Res Spec

variable {L : Layout} {P : Nat} {ε : Type}

/-- Text in the ASCII range. -/
def Ascii (s : List Char) : Prop := ∀ c ∈ s, c.toNat < 128

theorem Ascii.cons {c : Char} {s : List Char} (h : Ascii (c :: s)) : c.toNat < 128 ∧ Ascii s :=
  ⟨h c (by simp), fun d hd => h d (by simp [hd])⟩

theorem Ascii.append {a b : List Char} (ha : Ascii a) (hb : Ascii b) : Ascii (a ++ b) := by
  intro c hc
  rcases List.mem_append.1 hc with h | h
  · exact ha c h
  · exact hb c h

theorem Ascii.subset {a b : List Char} (hb : Ascii b) (h : ∀ c ∈ a, c ∈ b) : Ascii a :=
  fun c hc => hb c (h c hc)

theorem utf8Size_ascii {c : Char} (h : c.toNat < 128) : c.utf8Size = 1 := by
  have h' : c.val ≤ 0x7F := by
    rw [UInt32.le_iff_toNat_le]
    exact Nat.le_of_lt_succ h
  unfold Char.utf8Size
  exact if_pos h'

theorem encode_ascii {c : Char} (h : c.toNat < 128) :
    String.utf8EncodeChar c = [c.toNat.toUInt8] := by
  rw [String.utf8EncodeChar_eq_singleton (utf8Size_ascii h)]
  rfl

theorem strBytes_cons (c : Char) (s : List Char) :
    strBytes (c :: s) = String.utf8EncodeChar c ++ strBytes s := rfl

theorem strBytes_ascii {s : List Char} (h : Ascii s) :
    strBytes s = s.map fun c => c.toNat.toUInt8 := by
  induction s with
  | nil => rfl
  | cons c s ih =>
    rw [strBytes_cons, encode_ascii h.cons.1, ih h.cons.2]
    rfl

theorem strLen_ascii {s : List Char} (h : Ascii s) : strLen s = s.length := by
  unfold strLen
  rw [strBytes_ascii h, List.length_map]

theorem sliceTo_ascii {s : List Char} (h : Ascii s) {n : Nat} (hn : n ≤ s.length) :
    sliceTo s n = some (s.take n) := by
  induction s generalizing n with
  | nil =>
    obtain rfl : n = 0 := by simpa using hn
    rfl
  | cons c s ih =>
    rcases n with _ | n
    · rfl
    · unfold sliceTo
      have h1 := utf8Size_ascii h.cons.1
      rw [h1, if_pos (by omega), Nat.add_sub_cancel, ih h.cons.2 (by simpa using hn)]
      rfl

theorem sliceFrom_ascii {s : List Char} (h : Ascii s) (hn : s ≠ []) :
    sliceFrom s 1 = some (s.drop 1) := by
  rcases s with _ | ⟨c, s⟩
  · exact absurd rfl hn
  · unfold sliceFrom
    have h1 := utf8Size_ascii h.cons.1
    rw [h1, if_pos (by omega)]
    unfold sliceFrom
    simp

theorem digits_ascii {s : List Char} (h : s.all isDigit10 = true) : Ascii s := by
  intro c hc
  have := List.all_eq_true.1 h c hc
  unfold isDigit10 at this
  simp only [Bool.and_eq_true, decide_eq_true_eq] at this
  omega

theorem digit_ascii (ds : List (Fin 10)) : Ascii (ds.map digit) := by
  intro c hc
  obtain ⟨d, _, rfl⟩ := List.mem_map.1 hc
  rw [digit_toNat]
  have := d.isLt
  omega

theorem itoaNat_ascii (n : Nat) : Ascii (itoaNat n) := by
  obtain ⟨ds, h, _⟩ := itoaNat_spec n
  rw [h]
  exact digit_ascii ds

theorem minus_ascii : Ascii ['-'] := by
  intro c hc
  rw [List.mem_singleton.1 hc]
  decide

theorem itoa_ascii (z : Int) : Ascii (itoa z) := by
  unfold itoa
  split
  · exact minus_ascii.append (itoaNat_ascii _)
  · exact itoaNat_ascii _

theorem itoa_ne_nil (z : Int) : itoa z ≠ [] := by
  unfold itoa
  split
  · simp
  · unfold itoaNat
    split
    · simp
    · rename_i h
      intro hn
      have := congrArg List.length hn
      rw [List.length_map, List.length_reverse, List.length_nil, List.length_eq_zero_iff,
        Nat.digits_eq_nil_iff_eq_zero] at this
      exact h this

theorem trimEndZeros_mem {s : List Char} {c : Char} (h : c ∈ trimEndZeros s) : c ∈ s := by
  unfold trimEndZeros at h
  rw [List.mem_reverse] at h
  exact List.mem_reverse.1 ((List.dropWhile_sublist _).subset h)

theorem toNat_toUInt8 {n : Nat} (h : n < 128) : n.toUInt8.toNat = n := by
  have : n.toUInt8.toNat = n % 256 := rfl
  omega

/-! ## Parsing -/

theorem parsePartsB_eq (cfg : Cfg) (exact : Bool) (i : BitVec L.bits) {frac : List Char}
    (h : Ascii frac) (s : BitVec L.bits) (r : Option (BitVec L.bits)) :
    (FP.parsePartsB cfg exact i frac s r : Res ConvErr (FP L P)) =
      FP.parseParts cfg exact i frac s r := by
  unfold FP.parsePartsB FP.parseParts
  rw [strLen_ascii h]
  rfl

theorem idx_ascii {s : List Char} (h : Ascii s) {n : Nat} :
    (idx (strBytes s) n : Res ε _) = mapOk (idx s n) fun c => c.toNat.toUInt8 := by
  rw [strBytes_ascii h]
  unfold idx
  rw [List.getElem?_map]
  rcases s[n]? with _ | c <;> rfl

/-- Parsing on bytes is parsing on characters, for every text. -/
theorem parseStrB_eq (cfg : Cfg) (exact : Bool) (s : List Char) :
    (FP.parseStrB cfg exact s : Res ConvErr (FP L P)) = FP.parseStr cfg exact s := by
  unfold FP.parseStrB FP.parseStr
  dsimp only
  generalize strTrim s = t
  rcases hs : splitPoint t with _ | ⟨a, f⟩
  · rfl
  · dsimp only
    rcases hp : parseSigned L.bits a with _ | v
    · rfl
    · simp only [ofOption, ok_bind]
      by_cases hd : f.all isDigit10 = true
      · simp only [hd, Bool.not_true, Bool.false_eq_true, if_false]
        have hf := digits_ascii hd
        obtain ⟨e, -⟩ := splitPoint_some.1 hs
        obtain ⟨sg, ds, hne, ha⟩ := parseSigned_shape hp
        have hasc : Ascii a := by
          rw [ha]
          refine Ascii.append ?_ (digit_ascii ds)
          rcases sg with _ | _ | _
          · intro c hc; simp [Literal.signText] at hc
          · intro c hc
            simp only [Literal.signText, List.mem_singleton] at hc
            rw [hc]; decide
          · exact minus_ascii
        have hta : Ascii t := by
          rw [e]
          refine hasc.append fun c hc => ?_
          rcases List.mem_cons.1 hc with rfl | h
          · decide
          · exact hf c h
        rw [strLen_ascii hf, idx_ascii hta]
        have hfirst : ∃ c, (idx t 0 : Res ConvErr Char) = .ok c ∧ c.toNat < 128 := by
          rcases t with _ | ⟨c, t⟩
          · cases a <;> simp at e
          · exact ⟨c, rfl, hta.cons.1⟩
        obtain ⟨c, hc, hc'⟩ := hfirst
        have hm : (mapOk (idx t 0 : Res ConvErr Char) fun c => c.toNat.toUInt8) =
            .ok c.toNat.toUInt8 := by rw [hc]; rfl
        rw [hm, hc]
        simp only [ok_bind]
        have hiff : (c.toNat.toUInt8 = 45) ↔ c = '-' := by
          constructor
          · intro h
            have h2 : c.toNat.toUInt8.toNat = 45 := by rw [h]; rfl
            rw [toNat_toUInt8 hc'] at h2
            exact Char.ext (UInt32.toNat_inj.1 h2)
          · rintro rfl; rfl
        simp only [hiff]
        by_cases hx : (exact && decide (P < f.length)) = true
        · rw [if_pos hx, if_pos hx]
        · rw [if_neg hx, if_neg hx]
          by_cases hy : ((!exact) && decide (P < f.length)) = true
          · rw [if_pos hy, if_pos hy, idx_ascii hf]
            have hlt : P < f.length := by
              simp only [Bool.and_eq_true, decide_eq_true_eq] at hy
              exact hy.2
            have hi : (idx f P : Res ConvErr Char) = .ok f[P] := by
              unfold idx; rw [List.getElem?_eq_getElem hlt]
            have hm2 : (mapOk (idx f P : Res ConvErr Char) fun c => c.toNat.toUInt8) =
              .ok f[P].toNat.toUInt8 := by rw [hi]; rfl
            rw [hm2, hi, sliceTo_ascii hf hlt.le]
            simp only [ok_bind, slice]
            rw [toNat_toUInt8 (hf _ (List.getElem_mem hlt)),
              parsePartsB_eq cfg exact v (hf.subset fun c hc => List.mem_of_mem_take hc)]
          · rw [if_neg hy, if_neg hy, parsePartsB_eq cfg exact v hf]
      · rw [if_pos (by simpa using hd), if_pos (by simpa using hd)]

/-! ## The buffer -/

/-- The array holds the text `buf`. -/
structure Holds (cfg : Cfg) (m : StrMem) (buf : List Char) : Prop where
  size : m.buffer.length = strBufMaxLen cfg
  len : m.len = buf.length
  ascii : Ascii buf
  fits : buf.length ≤ strBufMaxLen cfg
  bytes : m.buffer.take m.len = strBytes buf

/-- Outcomes that correspond: both return, with the array holding the text, or the same fault. -/
def Same (cfg : Cfg) : Res ε StrMem → Res ε (List Char) → Prop
  | .ok m, .ok buf => Holds cfg m buf
  | .err e, .err e' => e = e'
  | .fault f, .fault f' => f = f'
  | _, _ => False

theorem holds_new (cfg : Cfg) : Holds cfg (StrMem.new cfg) [] :=
  ⟨List.length_replicate, rfl, fun c hc => absurd hc (by simp), Nat.zero_le _, rfl⟩

theorem Same.bind {cfg : Cfg} {r : Res ε StrMem} {r' : Res ε (List Char)}
    {f : StrMem → Res ε StrMem} {f' : List Char → Res ε (List Char)} (h : Same cfg r r')
    (hf : ∀ m buf, Holds cfg m buf → Same cfg (f m) (f' buf)) : Same cfg (r >>= f) (r' >>= f') := by
  rcases r with m | e | k <;> rcases r' with b | e' | k'
  · exact hf m b h
  · exact h.elim
  · exact h.elim
  · exact h.elim
  · exact h
  · exact h.elim
  · exact h.elim
  · exact h.elim
  · exact h

/-- A computation that does not touch the buffer. -/
theorem Same.bind_left {α : Type} {cfg : Cfg} (r : Res ε α) {f : α → Res ε StrMem}
    {f' : α → Res ε (List Char)} (hf : ∀ a, Same cfg (f a) (f' a)) :
    Same cfg (r >>= f) (r >>= f') := by
  rcases r with a | e | k
  · exact hf a
  · exact (rfl : e = e)
  · exact (rfl : k = k)

theorem same_pushStr {cfg : Cfg} {m : StrMem} {buf : List Char} (h : Holds cfg m buf)
    {s : List Char} (hs : Ascii s) :
    Same cfg (m.pushStr cfg s : Res ε StrMem) (StrBuf.pushStr cfg buf s) := by
  unfold StrMem.pushStr StrBuf.pushStr
  rw [strLen_ascii hs, h.len]
  refine Same.bind_left _ fun _ => ?_
  rw [h.size]
  by_cases hl : buf.length + s.length ≤ strBufMaxLen cfg
  · rw [if_pos hl, if_pos hl]
    have hb := h.bytes
    rw [h.len] at hb
    have hlen : (strBytes buf ++ strBytes s).length = buf.length + s.length := by
      rw [List.length_append]
      exact congrArg₂ _ (strLen_ascii h.ascii) (strLen_ascii hs)
    refine ⟨?_, by simp, h.ascii.append hs, by simpa using hl, ?_⟩
    · dsimp only
      rw [hb, List.length_append, hlen, List.length_drop, h.size]
      omega
    · dsimp only
      rw [hb, List.take_append_of_le_length (by omega), ← hlen, List.take_length]
      unfold strBytes
      rw [List.flatMap_append]
  · rw [if_neg hl, if_neg hl]
    exact rfl

theorem push_eq_pushStr (cfg : Cfg) (buf : List Char) (c : Char) :
    (StrBuf.push cfg buf c : Res ε _) = StrBuf.pushStr cfg buf [c] := by
  unfold StrBuf.push StrBuf.pushStr
  rfl

theorem same_push {cfg : Cfg} {m : StrMem} {buf : List Char} (h : Holds cfg m buf)
    {c : Char} (hc : c.toNat < 128) :
    Same cfg (m.push cfg c : Res ε StrMem) (StrBuf.push cfg buf c) := by
  have hs : Ascii [c] := by
    intro d hd
    rw [List.mem_singleton.1 hd]; exact hc
  have key : (m.push cfg c : Res ε StrMem) = m.pushStr cfg [c] := by
    unfold StrMem.push StrMem.pushStr
    have hd : (debugAssert cfg (decide (c.toNat < 128)) : Res ε Unit) = .ok () := by
      rw [decide_eq_true hc]; unfold debugAssert; simp
    rw [strLen_ascii hs, hd, strBytes_ascii hs]
    simp only [ok_bind, List.length_singleton, List.map_cons, List.map_nil]
    congr 1
    funext _
    by_cases hl : m.len < m.buffer.length
    · rw [if_pos hl, if_pos (by omega), List.set_eq_take_append_cons_drop, if_pos hl]
      simp
    · rw [if_neg hl, if_neg (by omega)]
  rw [key, push_eq_pushStr]
  exact same_pushStr h hs

theorem same_tail (cfg : Cfg) (x : FP L P) (c : BitVec L.bits) {m : StrMem} {buf : List Char}
    (h : Holds cfg m buf) : Same cfg
      (do
        let q ← SInt.div x.inner c
        let integral ← SInt.abs cfg q
        let r ← SInt.rem x.inner c
        let fractional ← SInt.abs cfg r
        let m ← m.pushStr cfg (itoa integral.toInt)
        let m ← m.push cfg '.'
        FP.stringifyFracB cfg c fractional m : Res ε StrMem)
      (do
        let q ← SInt.div x.inner c
        let integral ← SInt.abs cfg q
        let r ← SInt.rem x.inner c
        let fractional ← SInt.abs cfg r
        let buf ← StrBuf.pushStr cfg buf (itoa integral.toInt)
        let buf ← StrBuf.push cfg buf '.'
        FP.stringifyFrac cfg c fractional buf) := by
  refine Same.bind_left _ fun q => Same.bind_left _ fun i => Same.bind_left _ fun r =>
    Same.bind_left _ fun f => ?_
  refine Same.bind (same_pushStr h (itoa_ascii _)) fun m buf h => ?_
  refine Same.bind (same_push h (by decide)) fun m buf h => ?_
  unfold FP.stringifyFracB FP.stringifyFrac
  split
  · refine Same.bind_left _ fun one => ?_
    rw [sliceFrom_ascii (itoa_ascii _) (itoa_ne_nil _)]
    exact same_pushStr h ((itoa_ascii _).subset fun c hc =>
      List.mem_of_mem_drop (trimEndZeros_mem hc))
  · exact same_push h (by decide)

theorem same_stringify (cfg : Cfg) (x : FP L P) {m : StrMem} {buf : List Char}
    (h : Holds cfg m buf) :
    Same cfg (FP.stringifyB cfg x m : Res ε StrMem) (FP.stringify cfg x buf) := by
  unfold FP.stringifyB FP.stringify
  refine Same.bind_left _ fun c => ?_
  dsimp only
  split
  · exact Same.bind (same_push h (by decide)) fun m buf h => same_tail cfg x c h
  · exact same_tail cfg x c h

theorem asStr_holds {cfg : Cfg} {m : StrMem} {buf : List Char} (h : Holds cfg m buf) :
    (m.asStr : Res ε _) = .ok buf := by
  unfold StrMem.asStr
  have h1 : (m.buffer.take m.len).toByteArray = buf.utf8Encode := by rw [h.bytes]; rfl
  rw [if_pos (by rw [h.size, h.len]; exact h.fits), h1, List.utf8Decode?_utf8Encode]

/-! ## Slices -/

theorem strLen_nil : strLen [] = 0 := rfl

theorem strLen_cons (c : Char) (s : List Char) : strLen (c :: s) = c.utf8Size + strLen s := by
  unfold strLen strBytes
  rw [List.flatMap_cons, List.length_append, String.length_utf8EncodeChar]

theorem sliceTo_iff (s : List Char) : ∀ (n : Nat) (t : List Char),
    sliceTo s n = some t ↔ (∃ r, s = t ++ r) ∧ strLen t = n := by
  induction s with
  | nil =>
    intro n t
    cases n with
    | zero =>
      unfold sliceTo
      constructor
      · rintro ⟨⟩; exact ⟨⟨[], rfl⟩, rfl⟩
      · rintro ⟨⟨r, hr⟩, -⟩
        rw [(List.append_eq_nil_iff.1 hr.symm).1]
    | succ n =>
      unfold sliceTo
      constructor
      · intro h; cases h
      · rintro ⟨⟨r, hr⟩, h⟩
        rw [(List.append_eq_nil_iff.1 hr.symm).1] at h; cases h
  | cons c s ih =>
    intro n t
    have hc := c.utf8Size_pos
    cases n with
    | zero =>
      unfold sliceTo
      constructor
      · rintro ⟨⟩; exact ⟨⟨c :: s, rfl⟩, rfl⟩
      · rintro ⟨-, h⟩
        cases t with
        | nil => rfl
        | cons d t => rw [strLen_cons] at h; have := d.utf8Size_pos; omega
    | succ n =>
      unfold sliceTo
      by_cases hle : c.utf8Size ≤ n + 1
      · rw [if_pos hle]
        cases t with
        | nil => simp [strLen_nil]
        | cons d t =>
          rw [Option.map_eq_some_iff, strLen_cons]
          constructor
          · rintro ⟨a, h, e⟩
            cases e
            obtain ⟨⟨r, hr⟩, h2⟩ := (ih _ _).1 h
            exact ⟨⟨r, by rw [hr]; rfl⟩, by omega⟩
          · rintro ⟨⟨r, hr⟩, h⟩
            cases hr
            exact ⟨t, (ih _ _).2 ⟨⟨r, rfl⟩, by omega⟩, rfl⟩
      · rw [if_neg hle]
        refine ⟨fun h => (by cases h), ?_⟩
        rintro ⟨⟨r, hr⟩, h⟩
        cases t with
        | nil => cases h
        | cons d t => cases hr; rw [strLen_cons] at h; omega

theorem sliceFrom_iff (s : List Char) : ∀ (n : Nat) (t : List Char),
    sliceFrom s n = some t ↔ ∃ r, s = r ++ t ∧ strLen r = n := by
  induction s with
  | nil =>
    intro n t
    cases n with
    | zero =>
      unfold sliceFrom
      constructor
      · rintro ⟨⟩; exact ⟨[], rfl, rfl⟩
      · rintro ⟨r, hr, -⟩
        rw [(List.append_eq_nil_iff.1 hr.symm).2]
    | succ n =>
      unfold sliceFrom
      constructor
      · intro h; cases h
      · rintro ⟨r, hr, h⟩
        rw [(List.append_eq_nil_iff.1 hr.symm).1] at h; cases h
  | cons c s ih =>
    intro n t
    have hc := c.utf8Size_pos
    cases n with
    | zero =>
      unfold sliceFrom
      constructor
      · rintro ⟨⟩; exact ⟨[], rfl, rfl⟩
      · rintro ⟨r, hr, h⟩
        cases r with
        | nil => rw [hr]; rfl
        | cons d r => rw [strLen_cons] at h; have := d.utf8Size_pos; omega
    | succ n =>
      unfold sliceFrom
      by_cases hle : c.utf8Size ≤ n + 1
      · rw [if_pos hle, ih]
        constructor
        · rintro ⟨r, hr, h⟩
          exact ⟨c :: r, by rw [hr]; rfl, by rw [strLen_cons]; omega⟩
        · rintro ⟨r, hr, h⟩
          cases r with
          | nil => cases h
          | cons d r =>
            cases hr
            rw [strLen_cons] at h
            exact ⟨r, rfl, by omega⟩
      · rw [if_neg hle]
        refine ⟨fun h => (by cases h), ?_⟩
        rintro ⟨r, hr, h⟩
        cases r with
        | nil => cases h
        | cons d r => cases hr; rw [strLen_cons] at h; omega

theorem slice_iff (o : Option (List Char)) (t : List Char) :
    (slice o : Res ε _) = .ok t ↔ o = some t := by
  cases o <;> simp [slice]

theorem slice_panic_iff (o : Option (List Char)) :
    (slice o : Res ε _) = .panic ↔ ∀ t, o ≠ some t := by
  cases o <;> simp [slice]

end Fixnum
