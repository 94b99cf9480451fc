import Verif.BytesBasic
import Verif.LiteralBasic
import Verif.Props.Printing

/-!
# Properties C75 and C76: bytes

`Bytes.lean` is the code of `/repo/src/string.rs` on UTF-8 bytes.  C75: the unsafe buffer of `Display`
holds only ASCII, so the unchecked conversion to `&str` is sound, and the character model of
`Strings.lean` is faithful.  C76: parsing arbitrary UTF-8 text never cuts a character in two and never
indexes outside it, and again the character model is faithful.
-/

namespace Fixnum

open Res Spec

variable {L : Layout} {P : Nat} {ε : Type}

/-! ## C75 -/

/-- C75: the byte buffer prints what the character model prints, with the same panics and the same
undefined behaviour, for every number, type and build. -/
theorem C75_display_bytes (cfg : Cfg) (x : FP L P) :
    (FP.displayB cfg x : Res ε (List Char)) = FP.display cfg x := by
  unfold FP.displayB FP.display
  have h := same_stringify (ε := ε) cfg x (holds_new cfg)
  rcases h1 : (FP.stringifyB cfg x (StrMem.new cfg) : Res ε StrMem) with m | e | k <;>
    rcases h2 : (FP.stringify cfg x [] : Res ε (List Char)) with b | e' | k' <;> rw [h1, h2] at h
  · exact asStr_holds h
  · exact h.elim
  · exact h.elim
  · exact h.elim
  · exact congrArg Res.err h
  · exact h.elim
  · exact h.elim
  · exact h.elim
  · exact congrArg Res.fault h

example : (FP.displayB debugCfg (⟨-1500⟩ : FP .i32 3) : Res Unit _) = .ok "-1.5".toList := by
  decide +kernel

/-- A minus sign, a point or a digit. -/
def Printed (c : Char) : Prop := c = '-' ∨ c = '.' ∨ ('0' ≤ c ∧ c ≤ '9')

theorem printed_digits (ds : List (Fin 10)) : ∀ c ∈ ds.map digit, Printed c := by
  intro c hc
  obtain ⟨d, _, rfl⟩ := List.mem_map.1 hc
  have key : ∀ d : Fin 10, '0' ≤ digit d ∧ digit d ≤ '9' := by decide
  exact .inr (.inr (key d))

theorem printed_itoa (z : Int) : ∀ c ∈ itoa z, Printed c := by
  intro c hc
  unfold itoa at hc
  obtain ⟨ds, h, _⟩ := itoaNat_spec z.natAbs
  rw [h] at hc
  split at hc
  · rcases List.mem_cons.1 hc with rfl | hc
    · exact .inl rfl
    · exact printed_digits ds c hc
  · exact printed_digits ds c hc

theorem pushStr_inv {cfg : Cfg} {buf s t : List Char}
    (h : (StrBuf.pushStr cfg buf s : Res ε _) = .ok t) :
    t = buf ++ s ∧ t.length ≤ strBufMaxLen cfg := by
  unfold StrBuf.pushStr at h
  obtain ⟨_, _, h⟩ := bind_ok_inv h
  split at h
  · rename_i hl
    cases h
    exact ⟨rfl, by simpa using hl⟩
  · cases h

theorem push_inv {cfg : Cfg} {buf t : List Char} {c : Char}
    (h : (StrBuf.push cfg buf c : Res ε _) = .ok t) :
    t = buf ++ [c] ∧ t.length ≤ strBufMaxLen cfg := by
  rw [push_eq_pushStr] at h
  exact pushStr_inv h

theorem printed_append {a b : List Char} (ha : ∀ c ∈ a, Printed c) (hb : ∀ c ∈ b, Printed c) :
    ∀ c ∈ a ++ b, Printed c := by
  intro c hc
  rcases List.mem_append.1 hc with h | h
  · exact ha c h
  · exact hb c h

theorem printed_single {d : Char} (hd : Printed d) : ∀ c ∈ [d], Printed c := by
  intro c hc
  rw [List.mem_singleton.1 hc]; exact hd

theorem printed_tail {cfg : Cfg} {x : FP L P} {k : BitVec L.bits} {buf s : List Char}
    (hb : ∀ c ∈ buf, Printed c) (h : (do
        let q ← SInt.div x.inner k
        let integral ← SInt.abs cfg q
        let r ← SInt.rem x.inner k
        let fractional ← SInt.abs cfg r
        let buf ← StrBuf.pushStr cfg buf (itoa integral.toInt)
        let buf ← StrBuf.push cfg buf '.'
        FP.stringifyFrac cfg k fractional buf : Res ε (List Char)) = .ok s) :
    (∀ c ∈ s, Printed c) ∧ s.length ≤ strBufMaxLen cfg := by
  obtain ⟨q, _, h⟩ := bind_ok_inv h
  obtain ⟨i, _, h⟩ := bind_ok_inv h
  obtain ⟨r, _, h⟩ := bind_ok_inv h
  obtain ⟨f, _, h⟩ := bind_ok_inv h
  obtain ⟨b1, h1, h⟩ := bind_ok_inv h
  obtain ⟨b2, h2, h⟩ := bind_ok_inv h
  have p1 : ∀ c ∈ b1, Printed c := by
    rw [(pushStr_inv h1).1]; exact printed_append hb (printed_itoa _)
  have p2 : ∀ c ∈ b2, Printed c := by
    rw [(push_inv h2).1]; exact printed_append p1 (printed_single (.inr (.inl rfl)))
  unfold FP.stringifyFrac at h
  split at h
  · obtain ⟨o, _, h⟩ := bind_ok_inv h
    obtain ⟨h3, h4⟩ := pushStr_inv h
    refine ⟨?_, h4⟩
    rw [h3]
    exact printed_append p2 fun c hc =>
      printed_itoa _ c (List.mem_of_mem_drop (trimEndZeros_mem hc))
  · obtain ⟨h3, h4⟩ := push_inv h
    refine ⟨?_, h4⟩
    rw [h3]
    exact printed_append p2 (printed_single (.inr (.inr (by decide))))

/-- C75: whatever is printed consists of digits, points and minus signs, and fits the buffer; for
every number, type and build (also where the text is wrong, see C28). -/
theorem C75_printed_chars (cfg : Cfg) (x : FP L P) (s : List Char)
    (h : (FP.displayB cfg x : Res ε (List Char)) = .ok s) :
    (∀ c ∈ s, Printed c) ∧ s.length ≤ if cfg.i128 = true then 41 else 21 := by
  rw [C75_display_bytes] at h
  unfold FP.display FP.stringify at h
  obtain ⟨k, _, h⟩ := bind_ok_inv h
  dsimp only at h
  change _ ∧ s.length ≤ strBufMaxLen cfg
  split at h
  · obtain ⟨b, h1, h⟩ := bind_ok_inv h
    refine printed_tail ?_ h
    rw [(push_inv h1).1]
    exact printed_append (by simp) (printed_single (.inl rfl))
  · exact printed_tail (by simp) h

example := C75_printed_chars (ε := Empty) debugCfg (⟨-12340000000⟩ : FP .i64 9) "-12.34".toList
  (by rw [C75_display_bytes]; decide +kernel)

/-- C75: the bytes handed to `from_utf8_unchecked` are UTF-8: they are the encoding of a text.  So the
conversion adds no undefined behaviour to that of a write outside the buffer (C29). -/
theorem C75_utf8 (cfg : Cfg) (x : FP L P) (m : StrMem)
    (h : (FP.stringifyB cfg x (StrMem.new cfg) : Res ε StrMem) = .ok m) :
    m.len ≤ m.buffer.length ∧ ∃ s : List Char, m.buffer.take m.len = s.flatMap String.utf8EncodeChar
      ∧ (m.asStr : Res ε _) = .ok s := by
  have hs := same_stringify (ε := ε) cfg x (holds_new cfg)
  rw [h] at hs
  rcases h2 : (FP.stringify cfg x [] : Res ε (List Char)) with b | e' | k' <;> rw [h2] at hs
  · have hs : Holds cfg m b := hs
    exact ⟨by rw [hs.size, hs.len]; exact hs.fits, b, hs.bytes, asStr_holds hs⟩
  · exact hs.elim
  · exact hs.elim

example : ∃ (m : StrMem) (s : List Char), m.len ≤ m.buffer.length ∧
    m.buffer.take m.len = s.flatMap String.utf8EncodeChar ∧ (m.asStr : Res Empty _) = .ok s := by
  rcases e : (FP.stringifyB debugCfg (⟨-12340000000⟩ : FP .i64 9) (StrMem.new debugCfg) :
      Res Empty StrMem) with m | x | f
  · obtain ⟨h1, s, h2⟩ := C75_utf8 _ _ m e
    exact ⟨m, s, h1, h2⟩
  · cases x
  · exfalso
    have h : (FP.displayB debugCfg (⟨-12340000000⟩ : FP .i64 9) : Res Empty _) =
        .ok "-12.34".toList := by rw [C75_display_bytes]; decide +kernel
    unfold FP.displayB at h
    rw [e] at h
    cases h

example : ∃ m, (FP.stringifyB debugCfg (⟨-12340000000⟩ : FP .i64 9) (StrMem.new debugCfg) :
    Res Empty StrMem) = .ok m := by
  rcases e : (FP.stringifyB debugCfg (⟨-12340000000⟩ : FP .i64 9) (StrMem.new debugCfg) :
      Res Empty StrMem) with m | x | f
  · exact ⟨m, rfl⟩
  · cases x
  · exfalso
    have h : (FP.displayB debugCfg (⟨-12340000000⟩ : FP .i64 9) : Res Empty _) =
        .ok "-12.34".toList := by rw [C75_display_bytes]; decide +kernel
    unfold FP.displayB at h
    rw [e] at h
    cases h

/-- C75: hence no undefined behaviour on the domain of C29. -/
theorem C75_no_ub {cfg : Cfg} (hv : Valid cfg L P) (hP : 1 ≤ P) (hL : ¬ (L = .i128 ∧ P = 38))
    (x : FP L P) : (FP.displayB cfg x : Res ε (List Char)) ≠ .fault .ub := by
  rw [C75_display_bytes]
  exact C29_display_no_ub_partial hv hP hL x

example := C75_no_ub (ε := Unit) (cfg := debugCfg) (by decide) (by decide) (by decide) (⟨-12340000000⟩ : FP .i64 9)

example : (FP.displayB debugCfg (⟨-12340000000⟩ : FP .i64 9) : Res Empty _) =
    .ok "-12.34".toList := by
  rw [C75_display_bytes]; decide +kernel

/-! ## C76 -/

/-- C76: parsing on bytes is parsing on characters, with the same errors and panics, for every text,
type and build. -/
theorem C76_parse_bytes (cfg : Cfg) (exact : Bool) (s : List Char) :
    (FP.parseStrB cfg exact s : Res ConvErr (FP L P)) = FP.parseStr cfg exact s :=
  parseStrB_eq cfg exact s

example : (FP.parseStrB debugCfg true "-1.5".toList : Res ConvErr (FP .i32 3)) = .ok ⟨-1500⟩ := by
  decide +kernel

/-- C76: on any UTF-8 text both parsers return; no slice or index panics, in any build. -/
theorem C76_returns {cfg : Cfg} (hv : Valid cfg L P) (exact : Bool) (s : List Char) :
    (∃ x : FP L P, FP.parseStrB cfg exact s = .ok x) ∨
      ∃ e, (FP.parseStrB cfg exact s : Res ConvErr (FP L P)) = .err e := by
  rw [C76_parse_bytes]
  cases exact
  · exact C32_from_str_returns hv s
  · exact C31_from_str_exact_returns hv s

/-- Texts with characters of several bytes: trimmed white space, and rejected digits. -/
example : (FP.parseStrB debugCfg false " -1.25 ".toList : Res ConvErr (FP .i64 9)) =
      .ok ⟨-1250000000⟩ ∧
    (FP.parseStrB debugCfg false "1.٤٥".toList : Res ConvErr (FP .i64 9)) =
      .err ⟨"can't parse fractional part: must contain digits only"⟩ ∧
    strLen "1.٤٥".toList = 6 := by
  decide +kernel

/-- C76: what the slices mean that must not panic.  `&s[..n]` is the beginning of `s` of `n` bytes
and `&s[n..]` the rest after `n` bytes; both panic exactly if no beginning of `s` has `n` bytes, that
is if `n` is inside a character or beyond the end. -/
theorem C76_slice (s t : List Char) (n : Nat) :
    ((slice (sliceTo s n) : Res ε _) = .ok t ↔ ∃ r, s = t ++ r ∧ strLen t = n) ∧
    ((slice (sliceFrom s n) : Res ε _) = .ok t ↔ ∃ r, s = r ++ t ∧ strLen r = n) ∧
    ((slice (sliceTo s n) : Res ε _) = .panic ↔ ¬ ∃ a b, s = a ++ b ∧ strLen a = n) ∧
    ((slice (sliceFrom s n) : Res ε _) = .panic ↔ ¬ ∃ a b, s = a ++ b ∧ strLen a = n) := by
  rw [slice_iff, slice_iff, slice_panic_iff, slice_panic_iff, sliceTo_iff, sliceFrom_iff]
  refine ⟨⟨fun ⟨⟨r, h⟩, k⟩ => ⟨r, h, k⟩, fun ⟨r, h, k⟩ => ⟨⟨r, h⟩, k⟩⟩, Iff.rfl, ?_, ?_⟩
  · constructor
    · rintro h ⟨a, b, e, k⟩
      exact h a ((sliceTo_iff _ _ _).2 ⟨⟨b, e⟩, k⟩)
    · intro h t k
      obtain ⟨⟨r, e⟩, k⟩ := (sliceTo_iff _ _ _).1 k
      exact h ⟨t, r, e, k⟩
  · constructor
    · rintro h ⟨a, b, e, k⟩
      exact h b ((sliceFrom_iff _ _ _).2 ⟨a, e, k⟩)
    · intro h t k
      obtain ⟨r, e, k⟩ := (sliceFrom_iff _ _ _).1 k
      exact h ⟨r, t, e, k⟩

/-- Three bytes into `1.٤٥` is inside the first of the two Arabic digits, four bytes is after it. -/
example : (slice (sliceTo "1.٤٥".toList 3) : Res Unit _) = .panic ∧
    (slice (sliceTo "1.٤٥".toList 4) : Res Unit _) = .ok "1.٤".toList ∧
    (slice (sliceFrom "1.٤٥".toList 4) : Res Unit _) = .ok "٥".toList ∧
    (slice (sliceFrom "1.٤٥".toList 7) : Res Unit _) = .panic := by decide +kernel

end Fixnum
