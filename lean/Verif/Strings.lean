import Verif.FixedPoint
import Mathlib.Data.Nat.Digits.Defs

/-!
# Strings

Model of `/repo/src/string.rs`.  A `&str` is a list of characters; the two places where the code
looks at bytes (`as_bytes()[0]`, `as_bytes()[prec]`, `len()` of the fraction) are reached only for
ASCII text, where bytes and characters coincide.  `Bytes.lean` transcribes the same code on UTF-8 bytes
and `Props/Bytes.lean` proves that both agree on every input.
-/

namespace Fixnum

open Res

/-! ## `core::str` and `itoa` -/

/-- `char::is_whitespace`: the characters with the Unicode property `White_Space`.  Part of `trim`
at `/repo/src/string.rs:34`. -/
def isWhitespace (c : Char) : Bool :=
  let n := c.toNat
  (9 ≤ n && n ≤ 13) || n == 0x20 || n == 0x85 || n == 0xA0 || n == 0x1680 ||
    (0x2000 ≤ n && n ≤ 0x200A) || n == 0x2028 || n == 0x2029 || n == 0x202F || n == 0x205F ||
    n == 0x3000

/-- `str::trim`.  Used at `/repo/src/string.rs:34`. -/
def strTrim (s : List Char) : List Char :=
  ((s.dropWhile isWhitespace).reverse.dropWhile isWhitespace).reverse

/-- `str::split_once('.')`.  Used at `/repo/src/string.rs:36`. -/
def splitPoint : List Char → Option (List Char × List Char)
  | [] => none
  | c :: cs => if c = '.' then some ([], cs) else (splitPoint cs).map fun p => (c :: p.1, p.2)

/-- `c.is_digit(10)`.  Used at `/repo/src/string.rs:49`. -/
def isDigit10 (c : Char) : Bool := 48 ≤ c.toNat && c.toNat ≤ 57

/-- The number denoted by a list of decimal digits, most significant first.  Auxiliary to
`parseMagnitude`: the number read at `/repo/src/string.rs:40,46,82`. -/
def digitsValue (s : List Char) : Nat := s.foldl (fun n c => 10 * n + (c.toNat - 48)) 0

/-- `str::parse::<iN>()` of the digits after the sign; `none` is any `ParseIntError`.  Auxiliary to
`parseSigned`, `/repo/src/string.rs:40,46,82`. -/
def parseMagnitude (w : Nat) (negative : Bool) (s : List Char) : Option (BitVec w) :=
  if s.isEmpty || !s.all isDigit10 then none
  else SInt.checked w (if negative then -(digitsValue s : Int) else digitsValue s)

/-- `str::parse::<iN>()` for a signed integer: an optional sign, at least one digit, nothing else,
and the value must be in range.  Used at `/repo/src/string.rs:40,46,82`. -/
def parseSigned (w : Nat) (s : List Char) : Option (BitVec w) :=
  match s with
  | '+' :: r => parseMagnitude w false r
  | '-' :: r => parseMagnitude w true r
  | s => parseMagnitude w false s

/-- The decimal digit `d`.  Auxiliary to `itoaNat`, `/repo/src/string.rs:114,119`. -/
def digitChar (d : Nat) : Char := Char.ofNat (48 + d)

/-- `itoa::Buffer::format` of a non-negative number.  Auxiliary to `itoa`,
`/repo/src/string.rs:114,119`. -/
def itoaNat (n : Nat) : List Char :=
  if n = 0 then ['0'] else ((Nat.digits 10 n).reverse).map digitChar

/-- `itoa::Buffer::format`.  Used at `/repo/src/string.rs:114,119`. -/
def itoa (z : Int) : List Char := if z < 0 then '-' :: itoaNat z.natAbs else itoaNat z.natAbs

/-- `str::trim_end_matches('0')`.  Used at `/repo/src/string.rs:120`. -/
def trimEndZeros (s : List Char) : List Char := (s.reverse.dropWhile (· == '0')).reverse

/-! ## `StrBuf` -/

/-- `const MAX_LEN`, `/repo/src/string.rs:132`. -/
def strBufMaxLen (cfg : Cfg) : Nat := if cfg.i128 then 41 else 21

/-- `struct StrBuf`, `/repo/src/string.rs:137-140`: the `len` bytes written so far. -/
abbrev StrBuf := List Char

variable {ε : Type}

/-- `StrBuf::push`, `/repo/src/string.rs:153-159`.  The unchecked write outside the array is
undefined behaviour.  (`debug_assert!(c.is_ascii())` holds for the three characters pushed.) -/
def StrBuf.push (cfg : Cfg) (buf : StrBuf) (c : Char) : Res ε StrBuf := do
  debugAssert cfg (decide (buf.length < strBufMaxLen cfg))
  if buf.length < strBufMaxLen cfg then .ok (buf ++ [c]) else .fault .ub

/-- `StrBuf::push_str`, `/repo/src/string.rs:162-169`, for ASCII text. -/
def StrBuf.pushStr (cfg : Cfg) (buf : StrBuf) (s : List Char) : Res ε StrBuf := do
  debugAssert cfg (decide (buf.length + s.length ≤ strBufMaxLen cfg))
  if buf.length + s.length ≤ strBufMaxLen cfg then .ok (buf ++ s) else .fault .ub

namespace FP

variable {L : Layout} {P : Nat}

/-- The fractional part of `stringify`, `/repo/src/string.rs:117-123`.  The slice `[1..]` of a
formatted number is never out of range: it has at least one character. -/
def stringifyFrac (cfg : Cfg) (c : BitVec L.bits) (fractional : BitVec L.bits) (buf : StrBuf) :
    Res ε StrBuf :=
  if 0 < fractional.toInt then do
    let one ← SInt.add cfg fractional c
    let s := (itoa one.toInt).drop 1
    buf.pushStr cfg (trimEndZeros s)
  else buf.push cfg '0'

/-- `Stringify::stringify`, `/repo/src/string.rs:103-124`. -/
def stringify (cfg : Cfg) (x : FP L P) (buf : StrBuf) : Res ε StrBuf := do
  let c ← coef cfg L P
  let sign := SInt.signum x.inner
  let buf ← if sign.toInt < 0 then buf.push cfg '-' else .ok buf
  let q ← SInt.div x.inner c
  let integral ← SInt.abs cfg q
  let r ← SInt.rem x.inner c
  let fractional ← SInt.abs cfg r
  let buf ← buf.pushStr cfg (itoa integral.toInt)
  let buf ← buf.push cfg '.'
  stringifyFrac cfg c fractional buf

/-- `Display::fmt` and `Debug::fmt`, `/repo/src/lib.rs:648-663`: the text handed to `write_str`
(width, fill and precision of the formatter are ignored by the code). -/
def display (cfg : Cfg) (x : FP L P) : Res ε (List Char) := stringify cfg x []

/-- The optional rounding and the final sum of `parse_str`, `/repo/src/string.rs:72-98`. -/
def parseParts (cfg : Cfg) (exact : Bool) (integral : BitVec L.bits) (frac : List Char)
    (signum : BitVec L.bits) (round : Option (BitVec L.bits)) : Res ConvErr (FP L P) := do
  let c ← coef cfg L P
  let exp ← SInt.pow cfg (BitVec.ofInt L.bits 10) frac.length
  if exact && decide (c.toInt < exp.toInt) then .err ⟨"requested precision is too high"⟩
  else do
    debugAssert cfg (decide (exp.toInt ≤ c.toInt))
    let fractional ← ofOption ⟨"can't parse fractional part"⟩ (parseSigned L.bits frac)
    let finalIntegral ← ofOption ⟨"too big integral"⟩ (SInt.checkedMul integral c)
    let t ← SInt.mul cfg signum c
    let t ← SInt.div t exp
    let t ← SInt.mul cfg t fractional
    let t ← match round with
      | some r => do
        debugAssert cfg (!exact)
        SInt.add cfg t r
      | none => .ok t
    let r ← ofOption ⟨"too big number"⟩ (SInt.checkedAdd finalIntegral t)
    .ok (fromBits r)

/-- `parse_str`, `/repo/src/string.rs:33-99`.  `as_bytes()[0]` is in range because the integral
part was parsed successfully and so is not empty. -/
def parseStr (cfg : Cfg) (exact : Bool) (s : List Char) : Res ConvErr (FP L P) := do
  let s := strTrim s
  match splitPoint s with
  | none => do
    let v ← ofOption ⟨"can't parse integer"⟩ (parseSigned L.bits s)
    tryFromInt cfg v.toInt
  | some (integralStr, fractionalStr) => do
    let integral ← ofOption ⟨"can't parse integral part"⟩ (parseSigned L.bits integralStr)
    if !fractionalStr.all isDigit10 then
      .err ⟨"can't parse fractional part: must contain digits only"⟩
    else do
      let first ← idx s 0
      let signum : BitVec L.bits := BitVec.ofInt _ (if first = '-' then -1 else 1)
      if exact && decide (P < fractionalStr.length) then
        .err ⟨"requested precision is too high"⟩
      else if !exact && decide (P < fractionalStr.length) then do
        let extra ← idx fractionalStr P
        parseParts cfg exact integral (fractionalStr.take P) signum
          (if 53 ≤ extra.toNat then some signum else none)
      else parseParts cfg exact integral fractionalStr signum none

/-- `FromStr::from_str`, `/repo/src/string.rs:19-21`. -/
def fromStr (cfg : Cfg) (s : List Char) : Res ConvErr (FP L P) := parseStr cfg false s

/-- `from_str_exact`, `/repo/src/string.rs:29-31`. -/
def fromStrExact (cfg : Cfg) (s : List Char) : Res ConvErr (FP L P) := parseStr cfg true s

end FP

end Fixnum
