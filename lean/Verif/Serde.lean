import Verif.Strings
import Verif.Float
import Verif.FloatOps

/-!
# serde

Model of `/repo/src/serde.rs`.

* A `Serializer` is its answer to `is_human_readable` (`human`); the result is the token it was given
  (one call of `serialize_*`).  Serializers that fail are in `Io.lean`.
* A `Deserializer` is `human` and the `Content` it is about to deliver.  Each `deserialize_*` method
  calls the visitor's method for that content, whatever the hint (as in
  `forward_to_deserialize_any!`), except `deserialize_option`.  Malformed input, on which the format
  itself fails, is in `Io.lean`.
* `F` in the `repr`, `str`, `float` modules is `FixedPoint` itself: the user's `Into`/`From` are
  identities (`Wrap.lean` has the general case).

Definitions of the external crate `serde` (1.0) say so.
-/

namespace Fixnum

open Res

variable {ε : Type} {L : Layout} {P : Nat}

/-- What is handed to a `Serializer`: `serialize_str`, `serialize_i16 … serialize_i128` (by width),
`serialize_f64`, `serialize_none`, `serialize_some`.  The calls at
`/repo/src/serde.rs:160,192,221,255,257,294,330`. -/
inductive SerToken
  | str (s : List Char)
  | int (width : Nat) (v : Int)
  | f64 (bits : BitVec 64)
  | none
  | some (t : SerToken)
deriving DecidableEq, Repr

/-- What a `Deserializer` delivers, one constructor per kind of visitor method: integers with their
width, `f32` by its value widened to `f64`, strings borrowed from the input (`visit_borrowed_str`)
or not (`visit_str`, `visit_string`), byte strings by the result of decoding them as UTF-8.  What
`/repo/src/serde.rs:51-60` and the modules below it read. -/
inductive Content
  | bool (b : Bool)
  | int (width : Nat) (v : Int)
  | uint (width : Nat) (v : Nat)
  | f32 (widened : BitVec 64)
  | f64 (bits : BitVec 64)
  | char (c : Char)
  | str (borrowed : Bool) (s : List Char)
  | bytes (borrowed : Bool) (utf8 : Option (List Char))
  | unit
  | none
  | some (c : Content)
  | newtype (c : Content)
  | seq (cs : List Content)
  | map (entries : List (Content × Content))
  | enum

/-- `serde::de::Unexpected`.  Used at `/repo/src/serde.rs:78-142`. -/
inductive Unexpected
  | bool (b : Bool)
  | unsigned (v : Nat)
  | signed (v : Int)
  | float (bits : BitVec 64)
  | str (s : List Char)
  | bytes
  | unit
  | option
  | newtypeStruct
  | seq
  | map
  | enum
  | other (s : String)
deriving DecidableEq, Repr

/-- The errors made by the modelled code: `invalid_type` and `invalid_value`, with what was
expected.  `/repo/src/serde.rs:78-142,233,271,308`. -/
inductive DeErr
  | invalidType (u : Unexpected) (expected : String)
  | invalidValue (u : Unexpected) (expected : String)
deriving DecidableEq, Repr

/-- The provided methods of `serde::de::Visitor` for contents a visitor does not handle, in terms of
its `expecting` text.  The provided `visit_char`, `visit_i8`, `visit_f32`, `visit_borrowed_str`, …
forward to `visit_str`, `visit_i64`, `visit_f64`, …, hence the forwarded `Unexpected`.  serde.  They
complete the visitor at `/repo/src/serde.rs:65-146`. -/
def Content.unexpected : Content → Unexpected
  | .bool b => .bool b
  | .int w v => if w ≤ 64 then .signed v else .other s!"integer `{v}` as i128"
  | .uint w v => if w ≤ 64 then .unsigned v else .other s!"integer `{v}` as u128"
  | .f32 b => .float b
  | .f64 b => .float b
  | .char c => .str [c]
  | .str _ s => .str s
  | .bytes _ _ => .bytes
  | .unit => .unit
  | .none => .option
  | .some _ => .option
  | .newtype _ => .newtypeStruct
  | .seq _ => .seq
  | .map _ => .map
  | .enum => .enum

/-- `<iN as Deserialize>::deserialize` for `i16 … i128` (`N` the width): any integer content in
range; contents of 128 bits only for `i128`.  serde.  Used at `/repo/src/serde.rs:171,203`. -/
def deInt (n : Nat) (c : Content) : Res DeErr (BitVec n) :=
  let expected := s!"i{n}"
  match c with
  | .int w v =>
    if 64 < w ∧ n ≤ 64 then .err (.invalidType c.unexpected expected)
    else if Fits n v then .ok (BitVec.ofInt n v)
    else .err (.invalidValue (.signed v) expected)
  | .uint w v =>
    if 64 < w ∧ n ≤ 64 then .err (.invalidType c.unexpected expected)
    else if Fits n v then .ok (BitVec.ofInt n v)
    else .err (.invalidValue (if w ≤ 64 then .unsigned v else .other "u128") expected)
  | _ => .err (.invalidType c.unexpected expected)

/-- `<f64 as Deserialize>::deserialize`: floats, and integers of at most 64 bits by `as f64`.
serde.  Used at `/repo/src/serde.rs:306`. -/
def deF64 (c : Content) : Res DeErr (BitVec 64) :=
  match c with
  | .f64 b => .ok b
  | .f32 b => .ok b
  | .int w v => if w ≤ 64 then .ok (F64.ofInt v) else .err (.invalidType c.unexpected "f64")
  | .uint w v => if w ≤ 64 then .ok (F64.ofInt v) else .err (.invalidType c.unexpected "f64")
  | _ => .err (.invalidType c.unexpected "f64")

/-- `<&str as Deserialize>::deserialize`: only text borrowed from the input.  serde.  Used at
`/repo/src/serde.rs:231,268`. -/
def deBorrowedStr (c : Content) : Res DeErr (List Char) :=
  match c with
  | .str true s => .ok s
  | .bytes true (some s) => .ok s
  | .bytes true none => .err (.invalidValue .bytes "a borrowed string")
  | _ => .err (.invalidType c.unexpected "a borrowed string")

/-- `<String as Deserialize>::deserialize`.  serde.  Used at `/repo/src/serde.rs:128,137`. -/
def deString (c : Content) : Res DeErr (List Char) :=
  match c with
  | .str _ s => .ok s
  | .char ch => .ok [ch]
  | .bytes _ (some s) => .ok s
  | .bytes _ none => .err (.invalidValue .bytes "a string")
  | _ => .err (.invalidType c.unexpected "a string")

/-- `<Option<T> as Deserialize>::deserialize`: `deserialize_option` delivers an absent value or unit
as `None` and everything else to `T`, with or without an explicit `Some`.  serde.  Used at
`/repo/src/serde.rs:203,268`. -/
def deOption {α : Type} (de : Content → Res DeErr α) : Content → Res DeErr (Option α)
  | .none => .ok none
  | .unit => .ok none
  | .some c => mapOk (de c) some
  | c => mapOk (de c) some

/-! ## `FixedPointVisitor`, `/repo/src/serde.rs:63-146` -/

/-- `expecting`, `/repo/src/serde.rs:72-74`. -/
def visitorExpecting : String := "number or string containing a fixed-point number"

/-- `visit_str`, `/repo/src/serde.rs:76-79`. -/
def visitStr (cfg : Cfg) (s : List Char) : Res DeErr (FP L P) :=
  mapErr (FP.fromStr cfg s) fun _ => .invalidValue (.str s) visitorExpecting

/-- `visit_f64`, `/repo/src/serde.rs:81-83`. -/
def visitF64 (cfg : Cfg) (f : BitVec 64) : Res DeErr (FP L P) :=
  mapErr (FP.tryFromF64 cfg f) fun _ => .invalidValue (.float f) visitorExpecting

/-- `visit_i64`, `/repo/src/serde.rs:85-87`. -/
def visitI64 (cfg : Cfg) (i : Int) : Res DeErr (FP L P) :=
  mapErr (FP.tryFromInt cfg i) fun _ => .invalidValue (.signed i) visitorExpecting

/-- `visit_u64`, `/repo/src/serde.rs:89-91`. -/
def visitU64 (cfg : Cfg) (u : Nat) : Res DeErr (FP L P) :=
  mapErr (FP.tryFromInt cfg u) fun _ => .invalidValue (.unsigned u) visitorExpecting

/-- `visit_i128`, `/repo/src/serde.rs:93-104`; `i as i64 as i128 == i` says that `i` fits. -/
def visitI128 (cfg : Cfg) (i : Int) : Res DeErr (FP L P) :=
  mapErr (FP.tryFromInt cfg i) fun _ =>
    .invalidValue (if (BitVec.ofInt 64 i).toInt = i then .signed i else .other "big i128")
      visitorExpecting

/-- `visit_u128`, `/repo/src/serde.rs:106-117`. -/
def visitU128 (cfg : Cfg) (u : Nat) : Res DeErr (FP L P) :=
  mapErr (FP.tryFromInt cfg u) fun _ =>
    .invalidValue (if (BitVec.ofNat 64 u).toNat = u then .unsigned u else .other "big u128")
      visitorExpecting

/-- `visit_map`, `/repo/src/serde.rs:121-143` (feature `quick-xml`). -/
def visitMap (cfg : Cfg) (entries : List (Content × Content)) : Res DeErr (FP L P) :=
  let bad : Res DeErr (FP L P) := .err (.invalidType .map visitorExpecting)
  match entries with
  | [] => bad
  | (k, v) :: _ =>
    match deString k with
    | .ok key =>
      if key = "$value".toList then
        match deString v with
        | .ok value => mapErr (FP.fromStr cfg value) fun _ =>
            .invalidValue (.str value) visitorExpecting
        | .err _ => bad
        | .fault f => .fault f
      else bad
    | .err _ => bad
    | .fault f => .fault f

/-- `deserializer.deserialize_any(FixedPointVisitor)`: the visitor's own methods and the provided
ones, which forward smaller integers, `f32`, characters and the other kinds of strings and reject
everything else.  `quickXml` is the cargo feature `quick-xml`.  `/repo/src/serde.rs:56`. -/
def visitAny (cfg : Cfg) (quickXml : Bool) (c : Content) : Res DeErr (FP L P) :=
  match c with
  | .str _ s => visitStr cfg s
  | .char ch => visitStr cfg [ch]
  | .f64 b => visitF64 cfg b
  | .f32 b => visitF64 cfg b
  | .int w v => if w ≤ 64 then visitI64 cfg v else visitI128 cfg v
  | .uint w v => if w ≤ 64 then visitU64 cfg v else visitU128 cfg v
  | .map entries =>
    if quickXml then visitMap cfg entries else .err (.invalidType .map visitorExpecting)
  | c => .err (.invalidType c.unexpected visitorExpecting)

namespace FP

/-! ## The `repr`, `str` and `float` modules -/

/-- `repr::serialize`, `/repo/src/serde.rs:154-161`. -/
def reprSerialize (x : FP L P) : Res ε SerToken := .ok (.int L.bits x.intoBits.toInt)

/-- `repr::deserialize`, `/repo/src/serde.rs:165-174`. -/
def reprDeserialize (c : Content) : Res DeErr (FP L P) := mapOk (deInt L.bits c) fromBits

/-- `repr_option::serialize`, `/repo/src/serde.rs:183-193`; `Option::serialize` calls
`serialize_some` or `serialize_none`. -/
def reprOptionSerialize : Option (FP L P) → Res ε SerToken
  | some x => .ok (.some (.int L.bits x.intoBits.toInt))
  | none => .ok .none

/-- `repr_option::deserialize`, `/repo/src/serde.rs:197-205`. -/
def reprOptionDeserialize (c : Content) : Res DeErr (Option (FP L P)) :=
  mapOk (deOption (deInt L.bits) c) (Option.map fromBits)

/-- `str::serialize`, `/repo/src/serde.rs:213-222`. -/
def strSerialize (cfg : Cfg) (x : FP L P) : Res ε SerToken := do
  let buf ← stringify cfg x []
  .ok (.str buf)

/-- The conversion after reading the text, `/repo/src/serde.rs:232-237,267-274`. -/
def strParse (cfg : Cfg) (s : List Char) : Res DeErr (FP L P) :=
  mapErr (fromStr cfg s) fun _ => .invalidValue (.str s) "string containing a fixed-point number"

/-- `str::deserialize`, `/repo/src/serde.rs:225-238`. -/
def strDeserialize (cfg : Cfg) (c : Content) : Res DeErr (FP L P) := do
  let s ← deBorrowedStr c
  strParse cfg s

/-- `str_option::serialize`, `/repo/src/serde.rs:246-259`. -/
def strOptionSerialize (cfg : Cfg) : Option (FP L P) → Res ε SerToken
  | some x => do
    let buf ← stringify cfg x []
    .ok (.some (.str buf))
  | none => .ok .none

/-- `str_option::deserialize`, `/repo/src/serde.rs:262-277`. -/
def strOptionDeserialize (cfg : Cfg) (c : Content) : Res DeErr (Option (FP L P)) := do
  let s ← deOption deBorrowedStr c
  match s with
  | some s => mapOk (strParse cfg s) some
  | none => .ok none

/-- `float::serialize`, `/repo/src/serde.rs:286-295`. -/
def floatSerialize (cfg : Cfg) (x : FP L P) : Res ε SerToken := do
  let f ← toF64 cfg x
  .ok (.f64 f)

/-- The conversion after reading the number, `/repo/src/serde.rs:307-313,348-355`. -/
def floatParse (cfg : Cfg) (f : BitVec 64) : Res DeErr (FP L P) :=
  mapErr (tryFromF64 cfg f) fun _ => .invalidValue (.float f) "float containing a fixed-point number"

/-- `float::deserialize`, `/repo/src/serde.rs:298-314`. -/
def floatDeserialize (cfg : Cfg) (c : Content) : Res DeErr (FP L P) := do
  let f ← deF64 c
  floatParse cfg f

/-- `float_option::serialize`, `/repo/src/serde.rs:323-335`. -/
def floatOptionSerialize (cfg : Cfg) : Option (FP L P) → Res ε SerToken
  | some x => do
    let f ← toF64 cfg x
    .ok (.some (.f64 f))
  | none => .ok .none

/-- `float_option::deserialize`, `/repo/src/serde.rs:338-357`. -/
def floatOptionDeserialize (cfg : Cfg) (c : Content) : Res DeErr (Option (FP L P)) := do
  let f ← deOption deF64 c
  match f with
  | some f => mapOk (floatParse cfg f) some
  | none => .ok none

/-! ## `Serialize` and `Deserialize` -/

/-- `Serialize::serialize`, `/repo/src/serde.rs:33-42`. -/
def serialize (cfg : Cfg) (human : Bool) (x : FP L P) : Res ε SerToken :=
  if human then strSerialize cfg x else reprSerialize x

/-- `Deserialize::deserialize`, `/repo/src/serde.rs:51-60`. -/
def deserialize (cfg : Cfg) (quickXml human : Bool) (c : Content) : Res DeErr (FP L P) :=
  if human then visitAny cfg quickXml c else reprDeserialize c

end FP

end Fixnum
