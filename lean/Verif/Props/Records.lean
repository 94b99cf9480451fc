import Verif.Props.Compact
import Verif.Props.Bytes
import Verif.Props.Text

/-! # Property C112: records of numbers survive being written and read

Client code: a message is a sequence of numbers of fixed types, each written with `Encode` or, where
the field is declared compact, as `Compact`; a line of a table is the printed numbers with a separator
between them.  The definitions here are such a client, they call the modelled functions one field
after the other as `#[derive(Encode, Decode)]`, `join` and `split` do. -/

namespace Fixnum

open Res Spec

variable {L : Layout} {P : Nat} {ε : Type}

/-- The declaration of a field: layout, precision, and `#[codec(compact)]`. -/
structure Field where
  L : Layout
  P : Nat
  compact : Bool

/-- Writing a field. -/
def Field.encode (f : Field) (x : FP f.L f.P) : List (BitVec 8) :=
  if f.compact then FP.encodeCompact x else FP.encode x

/-- Reading a field. -/
def Field.decode (f : Field) (input : List (BitVec 8)) :
    Res CodecErr (FP f.L f.P × List (BitVec 8)) :=
  if f.compact then FP.decodeCompact input else FP.decode input

/-- A record with the declared fields. -/
inductive Record : List Field → Type
  | nil : Record []
  | cons {f : Field} {fs : List Field} (x : FP f.L f.P) (r : Record fs) : Record (f :: fs)

namespace Record

/-- Writing the fields one after the other. -/
def encode : {fs : List Field} → Record fs → List (BitVec 8)
  | _, .nil => []
  | f :: _, .cons x r => f.encode x ++ encode r

/-- Reading the fields one after the other. -/
def decode : (fs : List Field) → List (BitVec 8) → Res CodecErr (Record fs × List (BitVec 8))
  | [], input => .ok (.nil, input)
  | f :: fs, input => do
    let (x, input) ← f.decode input
    let (r, input) ← decode fs input
    .ok (.cons x r, input)

/-- Printing the fields. -/
def print (cfg : Cfg) : {fs : List Field} → Record fs → Res ε (List (List Char))
  | _, .nil => .ok []
  | _, .cons x r => do
    let s ← FP.display cfg x
    let ts ← print cfg r
    .ok (s :: ts)

/-- Parsing the fields; as many texts as fields are needed. -/
def parse (cfg : Cfg) : (fs : List Field) → List (List Char) → Res ConvErr (Record fs)
  | [], [] => .ok .nil
  | f :: fs, s :: ts => do
    let x : FP f.L f.P ← FP.fromStr cfg s
    let r ← parse cfg fs ts
    .ok (.cons x r)
  | _, _ => .err ⟨"wrong number of fields"⟩

end Record

/-- C112, bytes: what is decoded is what was encoded, in the same order and to the last byte, and only
that: there is exactly one encoding of a record, and no encoding is the beginning of another. -/
theorem C112_bytes (fs : List Field) (input rest : List (BitVec 8)) (r : Record fs) :
    Record.decode fs input = .ok (r, rest) ↔ input = r.encode ++ rest := by
  induction fs generalizing input with
  | nil =>
    cases r
    simp [Record.decode, Record.encode]
  | cons f fs ih =>
    cases r with
    | cons x r =>
      have key : ∀ (y : FP f.L f.P) (i : List (BitVec 8)),
          f.decode input = .ok (y, i) ↔ input = f.encode y ++ i := by
        intro y i
        unfold Field.decode Field.encode
        cases f.compact
        · exact C48_decode_iff _ _ _
        · exact C84_decode_iff _ _ _
      unfold Record.decode Record.encode
      rw [List.append_assoc, ← key x (r.encode ++ rest)]
      constructor
      · intro h
        obtain ⟨⟨y, i⟩, h1, h⟩ := bind_ok_inv h
        obtain ⟨⟨q, j⟩, h2, h⟩ := bind_ok_inv h
        injection h with h
        injection h with h3 h4
        injection h3 with h5 h6 h7 h8
        subst h7 h8 h4
        rw [h1, (ih i q).1 h2]
      · intro h
        rw [h]
        show (Record.decode fs (r.encode ++ rest) >>= _) = _
        rw [(ih _ r).2 rfl]
        rfl

-- `-10.042` with 3 digits in 32 bits, `6.9` compact, `-0.01`
example : Record.decode [⟨.i32, 3, false⟩, ⟨.i64, 1, true⟩, ⟨.i16, 2, false⟩]
      [0xC6, 0xD8, 0xFF, 0xFF, 21, 1, 255, 255, 7] =
    .ok (.cons ⟨-10042⟩ (.cons ⟨69⟩ (.cons ⟨-1⟩ .nil)), [7]) :=
  (C112_bytes _ _ _ _).2 (by decide +kernel)

/-- C112, bytes: reading any bytes returns. -/
theorem C112_bytes_returns (fs : List Field) (input : List (BitVec 8)) :
    (∃ e, Record.decode fs input = .err e) ∨ ∃ r rest, Record.decode fs input = .ok (r, rest) := by
  induction fs generalizing input with
  | nil => exact .inr ⟨_, _, rfl⟩
  | cons f fs ih =>
    have key : (∃ e, f.decode input = .err e) ∨ ∃ x i, f.decode input = .ok (x, i) := by
      unfold Field.decode
      cases f.compact
      · by_cases h : 8 * input.length < f.L.bits
        · exact .inl ⟨_, (C48_decode_short input).2 h⟩
        · have hb := bits_div f.L
          refine .inr ⟨⟨BitVec.ofNat _ (leNat (input.take (f.L.bits / 8)))⟩,
            input.drop (f.L.bits / 8), ?_⟩
          show FP.decode input = _
          unfold FP.decode
          rw [decodeLe_spec _ _ (by omega)]
          rfl
      · exact C84_returns input
    unfold Record.decode
    rcases key with ⟨e, h⟩ | ⟨x, i, h⟩
    · exact .inl ⟨e, by rw [h]; rfl⟩
    · rcases ih i with ⟨e, h2⟩ | ⟨r, j, h2⟩
      · refine .inl ⟨e, ?_⟩
        rw [h]
        show (Record.decode fs i >>= _) = _
        rw [h2]
        rfl
      · refine .inr ⟨.cons x r, j, ?_⟩
        rw [h]
        show (Record.decode fs i >>= _) = _
        rw [h2]
        rfl

/-- `<Vec<FixedPoint> as Encode>::encode`, external crate: the length as `Compact<u32>`, which it has to
fit (an assertion), then the elements. -/
def encodeVec (xs : List (FP L P)) : Res ε (List (BitVec 8)) :=
  if xs.length < 2 ^ 32 then .ok (compactEncode 4 xs.length ++ xs.flatMap FP.encode) else .panic

/-- Reading a number of elements. -/
def decodeItems : Nat → List (BitVec 8) → Res CodecErr (List (FP L P) × List (BitVec 8))
  | 0, input => .ok ([], input)
  | n + 1, input => do
    let (x, input) ← FP.decode input
    let (xs, input) ← decodeItems n input
    .ok (x :: xs, input)

/-- `<Vec<FixedPoint> as Decode>::decode`, external crate. -/
def decodeVec (input : List (BitVec 8)) : Res CodecErr (List (FP L P) × List (BitVec 8)) := do
  let (n, input) ← compactDecode 4 input
  decodeItems n input

theorem decodeItems_iff (n : Nat) (input rest : List (BitVec 8)) (xs : List (FP L P)) :
    decodeItems n input = .ok (xs, rest) ↔ xs.length = n ∧ input = xs.flatMap FP.encode ++ rest := by
  induction n generalizing input xs with
  | zero =>
    unfold decodeItems
    cases xs with
    | nil => simp
    | cons x xs => simp
  | succ n ih =>
    unfold decodeItems
    constructor
    · intro h
      obtain ⟨⟨x, i⟩, h1, h⟩ := bind_ok_inv h
      obtain ⟨⟨ys, j⟩, h2, h⟩ := bind_ok_inv h
      cases h
      obtain ⟨h3, h4⟩ := (ih _ _).1 h2
      refine ⟨by simp [h3], ?_⟩
      rw [(C48_decode_iff _ _ _).1 h1, h4]
      simp
    · rintro ⟨h1, h2⟩
      cases xs with
      | nil => simp at h1
      | cons x xs =>
        rw [List.flatMap_cons, List.append_assoc] at h2
        rw [(C48_decode_iff _ _ _).2 h2, ok_bind]
        show (decodeItems n _ >>= _) = _
        rw [(ih _ xs).2 ⟨by simpa using h1, rfl⟩]
        rfl

/-- C112, bytes: a vector of fewer than `2^32` numbers is decoded from its encoding and from nothing
else. -/
theorem C112_vec (xs : List (FP L P)) (input rest : List (BitVec 8)) :
    decodeVec input = .ok (xs, rest) ↔
      ∃ b, (encodeVec xs : Res ε _) = .ok b ∧ input = b ++ rest := by
  unfold decodeVec encodeVec
  constructor
  · intro h
    obtain ⟨⟨n, i⟩, h1, h⟩ := bind_ok_inv h
    obtain ⟨h2, h3⟩ := compact_decode_inv (by norm_num) h1
    obtain ⟨h4, h5⟩ := (decodeItems_iff _ _ _ _).1 h
    subst h4
    exact ⟨_, if_pos h2, by rw [h3, h5, List.append_assoc]⟩
  · rintro ⟨b, hb, rfl⟩
    split at hb
    · rename_i hl
      cases hb
      rw [List.append_assoc, compact_round_trip (by norm_num) hl, ok_bind]
      exact (decodeItems_iff _ _ _ _).2 ⟨rfl, rfl⟩
    · cases hb

example : decodeVec [8, 254, 255, 3, 0, 9] = .ok ([(⟨-2⟩ : FP .i16 2), ⟨3⟩], [9]) ∧
    (encodeVec [(⟨-2⟩ : FP .i16 2), ⟨3⟩] : Res Unit _) = .ok [8, 254, 255, 3, 0] :=
  ⟨(C112_vec (ε := Unit) [(⟨-2⟩ : FP .i16 2), ⟨3⟩] _ _).2 ⟨_, rfl, by decide +kernel⟩,
    by decide +kernel⟩

/-- C112, text: printed with any separator that is not a digit, a sign or a point, and split at the
separator, every field is read as the number it was.  For types that print correctly, see C28. -/
theorem C112_text {cfg : Cfg} (fs : List Field) (hne : fs ≠ [])
    (hf : ∀ f ∈ fs, Valid cfg f.L f.P ∧ 1 ≤ f.P ∧ ¬ (f.L = .i128 ∧ f.P = 38)) (sep : Char)
    (hs : sep ≠ '-' ∧ sep ≠ '.' ∧ ¬ ('0' ≤ sep ∧ sep ≤ '9')) (r : Record fs) :
    ∃ ts, (r.print cfg : Res ε _) = .ok ts ∧
      Record.parse cfg fs (([sep].intercalate ts).splitOn sep) = .ok r := by
  have key : ∃ ts, (r.print cfg : Res ε _) = .ok ts ∧ Record.parse cfg fs ts = .ok r ∧
      ts.length = fs.length ∧ ∀ t ∈ ts, sep ∉ t := by
    clear hne
    induction fs with
    | nil => cases r; exact ⟨[], rfl, rfl, rfl, by simp⟩
    | cons f fs ih =>
      cases r with
      | cons x r =>
        obtain ⟨h1, h2, h3⟩ := hf f (by simp)
        obtain ⟨s, hd, hp, -⟩ := C30_round_trip_types (ε := ε) h1 h2 h3 x
        obtain ⟨ts, ht, hq, hl, hm⟩ := ih (fun g hg => hf g (by simp [hg])) r
        refine ⟨s :: ts, ?_, ?_, by simp [hl], ?_⟩
        · unfold Record.print
          rw [hd, ok_bind, ht]
          rfl
        · unfold Record.parse
          rw [hp, ok_bind, hq]
          rfl
        · intro t htm
          rcases List.mem_cons.1 htm with rfl | h
          · have := (C75_printed_chars cfg x t (by rw [C75_display_bytes]; exact hd)).1
            intro hmem
            rcases this sep hmem with h | h | h
            · exact hs.1 h
            · exact hs.2.1 h
            · exact hs.2.2 h
          · exact hm t h
  obtain ⟨ts, h1, h2, h3, h4⟩ := key
  refine ⟨ts, h1, ?_⟩
  rw [List.splitOn_intercalate sep h4 ?_]
  · exact h2
  · rintro rfl
    exact hne (List.length_eq_zero_iff.1 h3.symm)

example := C112_text (ε := Unit) (cfg := ⟨true, true, true, true⟩)
  [⟨.i32, 3, false⟩, ⟨.i128, 18, false⟩] (by simp) (by decide) ';' (by decide)
  (.cons ⟨-10042⟩ (.cons ⟨5⟩ .nil))
example : (Record.print ⟨true, true, true, true⟩
      (.cons ⟨-10042⟩ (.cons ⟨5⟩ .nil) : Record [⟨.i32, 3, false⟩, ⟨.i64, 1, true⟩]) : Res Unit _) =
    .ok ["-10.042".toList, "0.5".toList] := by decide +kernel

/-- What a line says: as many texts as fields, each a number in decimal notation, of which the record
has the nearest one of the field's type. -/
inductive Line : (fs : List Field) → List (List Char) → Record fs → Prop
  | nil : Line [] [] .nil
  | cons {f : Field} {fs : List Field} {s : List Char} {ts : List (List Char)} {x : FP f.L f.P}
      {r : Record fs} {l : Literal} (hs : IsText s l) (hx : value x = roundTo f.P .nearest l.denote)
      (ht : Line fs ts r) : Line (f :: fs) (s :: ts) (.cons x r)

/-- C112, text: a line is read as a record exactly if it says so; in particular with a text too many or
too few it is not read. -/
theorem C112_line {cfg : Cfg} (fs : List Field) (hf : ∀ f ∈ fs, Valid cfg f.L f.P ∧ 1 ≤ f.P)
    (ts : List (List Char)) (r : Record fs) :
    Record.parse cfg fs ts = .ok r ↔ Line fs ts r := by
  induction fs generalizing ts with
  | nil =>
    cases r
    cases ts with
    | nil => exact ⟨fun _ => .nil, fun _ => rfl⟩
    | cons s ts => exact ⟨nofun, nofun⟩
  | cons f fs ih =>
    cases r with
    | cons x r =>
      cases ts with
      | nil => exact ⟨nofun, nofun⟩
      | cons s ts =>
        obtain ⟨h1, h2⟩ := hf f (by simp)
        have ih := ih (fun g hg => hf g (by simp [hg])) ts r
        have hi := C32_from_str_iff (cfg := cfg) h1 h2 s x
        unfold Record.parse
        constructor
        · intro h
          cases hy : (FP.fromStr cfg s : Res ConvErr (FP f.L f.P)) with
          | err e => rw [hy] at h; cases h
          | fault k => rw [hy] at h; cases h
          | ok y =>
          rw [hy, ok_bind] at h
          cases hq : Record.parse cfg fs ts with
          | err e => rw [hq] at h; cases h
          | fault k => rw [hq] at h; cases h
          | ok q =>
          rw [hq, ok_bind] at h
          injection h with h
          injection h with _ _ h3 h4
          cases h3
          cases h4
          obtain ⟨l, hl, hv⟩ := hi.1 hy
          exact .cons hl hv (ih.1 hq)
        · rintro (_ | ⟨hl, hv, ht⟩)
          rw [hi.2 ⟨_, hl, hv⟩, ok_bind, ih.2 ht]
          rfl

example := C112_line (cfg := ⟨true, true, true, true⟩) [⟨.i32, 3, false⟩, ⟨.i128, 18, false⟩] (by decide)
  ["-10.0421".toList, "5".toList] (.cons ⟨-10042⟩ (.cons ⟨5000000000000000000⟩ .nil))
example : Record.parse ⟨true, true, true, true⟩ [⟨.i32, 3, false⟩, ⟨.i128, 18, false⟩]
      ["-10.0421".toList, "5".toList] = .ok (.cons ⟨-10042⟩ (.cons ⟨5000000000000000000⟩ .nil)) ∧
    (∃ e, Record.parse ⟨true, true, true, true⟩ [⟨.i32, 3, false⟩, ⟨.i128, 18, false⟩]
      ["-10.0421".toList, "5".toList, "6".toList] = .err e) := ⟨rfl, _, rfl⟩

end Fixnum
