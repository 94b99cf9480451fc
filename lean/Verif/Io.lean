import Verif.Serde
import Verif.Codec

/-!
# Readers and writers that fail

`Serde.lean`, `Strings.lean` and `Codec.lean` take the other side — serializer, formatter,
deserializer, SCALE input and output — to succeed.  Here it may fail, with errors of its own of a type
`E`, or panic.
-/

namespace Fixnum

open Res

variable {ε E R σ : Type} {L : Layout} {P : Nat}

/-- A `serde::Serializer`: its answer to `is_human_readable`, and what each `serialize_*` call
returns.  Used at `/repo/src/serde.rs:33-42`. -/
structure Serializer (E R : Type) where
  human : Bool
  call : SerToken → Res E R

/-- The error of a `serde::Deserializer`: one made by `invalid_type` or `invalid_value`, or one of its
own.  `D::Error` at `/repo/src/serde.rs:51`. -/
inductive ReadErr (E : Type)
  | de (e : DeErr)
  | own (e : E)
deriving DecidableEq, Repr

/-- What a `Deserializer` does when asked for a value: it delivers a content, fails, or starts a map
whose first key and the value after it are read one after the other, each of which may fail (`ok none`
is a map without entries).  serde's `MapAccess`.  Used at `/repo/src/serde.rs:56,126-139`. -/
inductive Source (E : Type)
  | content (c : Content)
  | fail (e : E)
  | map (key : Except E (Option Content)) (value : Except E Content)

namespace FP

/-- `Serialize::serialize` with any serializer, `/repo/src/serde.rs:33-42` with 154-161 and 213-222
(`F` is `FixedPoint`). -/
def serializeTo (cfg : Cfg) (s : Serializer E R) (x : FP L P) : Res E R :=
  if s.human then do
    let buf ← stringify cfg x []
    s.call (.str buf)
  else s.call (.int L.bits x.intoBits.toInt)

/-- `Display::fmt` and `Debug::fmt`, `/repo/src/lib.rs:648-663`, with any `Formatter::write_str`. -/
def fmtTo (cfg : Cfg) (writeStr : List Char → Res E Unit) (x : FP L P) : Res E Unit := do
  let buf ← stringify cfg x []
  writeStr buf

/-- `visit_map`, `/repo/src/serde.rs:121-143`, with any `MapAccess`.  The errors of `next_key` and
`next_value` are replaced. -/
def visitMapAccess (cfg : Cfg) (key : Except E (Option Content)) (value : Except E Content) :
    Res (ReadErr E) (FP L P) := do
  let bad : ReadErr E := .de (.invalidType .map visitorExpecting)
  let key ← match key with
    | .error _ => (.err bad : Res (ReadErr E) (Option (List Char)))
    | .ok none => .ok none
    | .ok (some k) => mapErr (mapOk (deString k) some) fun _ => bad
  if key ≠ some "$value".toList then .err bad
  else do
    let value ← match value with
      | .error _ => (.err bad : Res (ReadErr E) (List Char))
      | .ok v => mapErr (deString v) fun _ => bad
    mapErr (fromStr cfg value) fun _ => .de (.invalidValue (.str value) visitorExpecting)

/-- `Deserialize::deserialize` with any deserializer, `/repo/src/serde.rs:51-60`.  A map read as an
integer, and without the feature `quick-xml` any map, is an `invalid_type`. -/
def deserializeFrom (cfg : Cfg) (quickXml human : Bool) (src : Source E) :
    Res (ReadErr E) (FP L P) :=
  match src with
  | .fail e => .err (.own e)
  | .content c => mapErr (deserialize cfg quickXml human c) .de
  | .map key value =>
    if human then
      if quickXml then visitMapAccess cfg key value
      else .err (.de (.invalidType .map visitorExpecting))
    else .err (.de (.invalidType .map s!"i{L.bits}"))

/-- `Encode::encode_to` with any `Output`, `/repo/src/parity.rs:29-31`: `write` takes the state of the
output to the next. -/
def encodeToOutput (write : List (BitVec 8) → σ → Res ε σ) (x : FP L P) (out : σ) : Res ε σ :=
  write (encodeLe (L.bits / 8) (encodeAs x).toNat) out

/-- `from_le_bytes`.  `core`.  Part of `<uN as Decode>::decode`, used at `/repo/src/parity.rs:39`. -/
def fromLeBytes : List (BitVec 8) → Nat
  | [] => 0
  | b :: bs => b.toNat + 2 ^ 8 * fromLeBytes bs

/-- `Decode::decode` with any `Input`, `/repo/src/parity.rs:38-43`: `read n` fills a buffer of `n`
bytes or fails; the pair is the value and the input afterwards. -/
def decodeFromInput (read : Nat → σ → Res CodecErr (List (BitVec 8) × σ)) (input : σ) :
    Res CodecErr (FP L P × σ) :=
  mapErr
    (do
      let (buf, rest) ← read (L.bits / 8) input
      let fp ← decodeFrom (BitVec.ofNat L.bits (fromLeBytes buf))
      .ok (fp, rest))
    fun _ => ⟨"Error decoding FixedPoint value"⟩

end FP

end Fixnum
