import Verif.Strings

/-!
# Strings at the level of bytes

`Strings.lean` treats a `&str` as a list of characters.  This file transcribes the same code of
`/repo/src/string.rs` with the UTF-8 bytes it really works on: byte lengths, byte indices, slices that
must end between two characters, the fixed array behind `StrBuf` with its unchecked writes, and the
unchecked conversion back to a string.  `Props/Bytes.lean` proves that both models agree on every
input.  The UTF-8 encoding of a character is that of Lean's core library (`String.utf8EncodeChar`).
-/

namespace Fixnum

open Res

variable {ε : Type}

/-- `str::as_bytes`.  Used at `/repo/src/string.rs:55,65,165`. -/
def strBytes (s : List Char) : List UInt8 := s.flatMap String.utf8EncodeChar

/-- `str::len`: the number of bytes.  Used at `/repo/src/string.rs:59,64,73,163`. -/
def strLen (s : List Char) : Nat := (strBytes s).length

/-- `&s[..n]`; `none` if `n` is not a boundary between characters (a panic).  Used at
`/repo/src/string.rs:66`. -/
def sliceTo : List Char → Nat → Option (List Char)
  | _, 0 => some []
  | [], _ + 1 => none
  | c :: cs, n + 1 =>
    if c.utf8Size ≤ n + 1 then (sliceTo cs (n + 1 - c.utf8Size)).map (c :: ·) else none

/-- `&s[n..]`; `none` if `n` is not a boundary between characters (a panic).  Used at
`/repo/src/string.rs:119`. -/
def sliceFrom : List Char → Nat → Option (List Char)
  | s, 0 => some s
  | [], _ + 1 => none
  | c :: cs, n + 1 => if c.utf8Size ≤ n + 1 then sliceFrom cs (n + 1 - c.utf8Size) else none

/-- A slice expression: out of range or inside a character is a panic.  As at
`/repo/src/string.rs:66,119`. -/
def slice (o : Option (List Char)) : Res ε (List Char) :=
  match o with
  | some s => .ok s
  | none => .panic

/-! ## Parsing -/

namespace FP

variable {L : Layout} {P : Nat}

/-- The second half of `parse_str`, `/repo/src/string.rs:72-98`. -/
def parsePartsB (cfg : Cfg) (exact : Bool) (integral : BitVec L.bits) (frac : List Char)
    (signum : BitVec L.bits) (round : Option (BitVec L.bits)) : Res ConvErr (FP L P) := do
  let c ← coef cfg L P
  let exp ← SInt.pow cfg (BitVec.ofInt L.bits 10) (strLen frac)
  if exact && decide (c.toInt < exp.toInt) then .err ⟨"requested precision is too high"⟩
  else do
    debugAssert cfg (decide (exp.toInt ≤ c.toInt))
    let fractional ← ofOption ⟨"can't parse fractional part"⟩ (parseSigned L.bits frac)
    let finalIntegral ← ofOption ⟨"too big integral"⟩ (SInt.checkedMul integral c)
    let t ← SInt.mul cfg signum c
    let t ← SInt.div t exp
    let t ← SInt.mul cfg t fractional
    let t ← match round with
      | some r => do
        debugAssert cfg (!exact)
        SInt.add cfg t r
      | none => .ok t
    let r ← ofOption ⟨"too big number"⟩ (SInt.checkedAdd finalIntegral t)
    .ok (fromBits r)

/-- `parse_str`, `/repo/src/string.rs:33-99`, with bytes; 45 is `b'-'`, 53 is `b'5'`. -/
def parseStrB (cfg : Cfg) (exact : Bool) (s : List Char) : Res ConvErr (FP L P) := do
  let s := strTrim s
  match splitPoint s with
  | none => do
    let v ← ofOption ⟨"can't parse integer"⟩ (parseSigned L.bits s)
    tryFromInt cfg v.toInt
  | some (integralStr, fractionalStr) => do
    let integral ← ofOption ⟨"can't parse integral part"⟩ (parseSigned L.bits integralStr)
    if !fractionalStr.all isDigit10 then
      .err ⟨"can't parse fractional part: must contain digits only"⟩
    else do
      let first ← idx (strBytes s) 0
      let signum : BitVec L.bits := BitVec.ofInt _ (if first = 45 then -1 else 1)
      if exact && decide (P < strLen fractionalStr) then
        .err ⟨"requested precision is too high"⟩
      else if !exact && decide (P < strLen fractionalStr) then do
        let extra ← idx (strBytes fractionalStr) P
        let frac ← slice (sliceTo fractionalStr P)
        parsePartsB cfg exact integral frac signum
          (if 53 ≤ extra.toNat then some signum else none)
      else parsePartsB cfg exact integral fractionalStr signum none

end FP

/-! ## The buffer -/

/-- `struct StrBuf`, `/repo/src/string.rs:137-140`. -/
structure StrMem where
  buffer : List UInt8
  len : Nat

namespace StrMem

/-- `impl Default for StrBuf`, `/repo/src/string.rs:142-149`. -/
def new (cfg : Cfg) : StrMem := ⟨List.replicate (strBufMaxLen cfg) 0, 0⟩

/-- `StrBuf::push`, `/repo/src/string.rs:153-159`; `c as u8` truncates. -/
def push (cfg : Cfg) (m : StrMem) (c : Char) : Res ε StrMem := do
  debugAssert cfg (decide (m.len < strBufMaxLen cfg))
  debugAssert cfg (decide (c.toNat < 128))
  if m.len < m.buffer.length then .ok ⟨m.buffer.set m.len c.toNat.toUInt8, m.len + 1⟩
  else .fault .ub

/-- `StrBuf::push_str`, `/repo/src/string.rs:162-169`. -/
def pushStr (cfg : Cfg) (m : StrMem) (s : List Char) : Res ε StrMem := do
  debugAssert cfg (decide (m.len + strLen s ≤ strBufMaxLen cfg))
  if m.len + strLen s ≤ m.buffer.length then
    .ok ⟨m.buffer.take m.len ++ strBytes s ++ m.buffer.drop (m.len + strLen s), m.len + strLen s⟩
  else .fault .ub

/-- `StrBuf::as_str`, `/repo/src/string.rs:172-177`: undefined behaviour if `len` exceeds the array or
the bytes are not UTF-8. -/
def asStr (m : StrMem) : Res ε (List Char) :=
  if m.len ≤ m.buffer.length then
    match (m.buffer.take m.len).toByteArray.utf8Decode? with
    | some cs => .ok cs.toList
    | none => .fault .ub
  else .fault .ub

end StrMem

namespace FP

variable {L : Layout} {P : Nat}

/-- The fractional part of `stringify`, `/repo/src/string.rs:117-123`. -/
def stringifyFracB (cfg : Cfg) (c : BitVec L.bits) (fractional : BitVec L.bits) (m : StrMem) :
    Res ε StrMem :=
  if 0 < fractional.toInt then do
    let one ← SInt.add cfg fractional c
    let s ← slice (sliceFrom (itoa one.toInt) 1)
    m.pushStr cfg (trimEndZeros s)
  else m.push cfg '0'

/-- `Stringify::stringify`, `/repo/src/string.rs:103-124`. -/
def stringifyB (cfg : Cfg) (x : FP L P) (m : StrMem) : Res ε StrMem := do
  let c ← coef cfg L P
  let sign := SInt.signum x.inner
  let m ← if sign.toInt < 0 then m.push cfg '-' else .ok m
  let q ← SInt.div x.inner c
  let integral ← SInt.abs cfg q
  let r ← SInt.rem x.inner c
  let fractional ← SInt.abs cfg r
  let m ← m.pushStr cfg (itoa integral.toInt)
  let m ← m.push cfg '.'
  stringifyFracB cfg c fractional m

/-- `Display::fmt`, `/repo/src/lib.rs:648-656`: `StrBuf::default()`, `stringify`, `as_str`. -/
def displayB (cfg : Cfg) (x : FP L P) : Res ε (List Char) := do
  let m ← stringifyB cfg x (StrMem.new cfg)
  m.asStr

end FP

end Fixnum
