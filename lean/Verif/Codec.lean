import Verif.FixedPoint

/-!
# SCALE codec

Model of `/repo/src/parity.rs`.  The external crate `parity-scale-codec` contributes the encoding of
the primitive unsigned integers (`Encode`/`Decode` for `u16 … u128`: little-endian, fixed width) and
the traits; `Input` is the list of remaining bytes, `Output` the list of bytes written so far.
Inputs that fail for other reasons than a lack of bytes are in `Io.lean`, the variable-length format of
`Compact<u16 … u128>` is in `Compact.lean`.
-/

namespace Fixnum

open Res

variable {L : Layout} {P : Nat}

/-- `parity_scale_codec::Error`, here the description only.  Used at `/repo/src/parity.rs:38,62`. -/
structure CodecErr where
  desc : String
deriving DecidableEq, Repr

/-- `<uN as Encode>::encode` for an `n`-byte unsigned integer: `to_le_bytes`.  External crate.  Used
at `/repo/src/parity.rs:30`. -/
def encodeLe : Nat → Nat → List (BitVec 8)
  | 0, _ => []
  | n + 1, v => BitVec.ofNat 8 v :: encodeLe n (v / 2 ^ 8)

/-- `<uN as Decode>::decode` for an `n`-byte unsigned integer: reads `n` bytes (an error if there
are fewer) and applies `from_le_bytes`.  The pair is the integer and the remaining input.  External
crate.  Used at `/repo/src/parity.rs:39`. -/
def decodeLe : Nat → List (BitVec 8) → Res CodecErr (Nat × List (BitVec 8))
  | 0, bs => .ok (0, bs)
  | _ + 1, [] => .err ⟨"Not enough data to fill buffer"⟩
  | n + 1, b :: bs => do
    let (v, rest) ← decodeLe n bs
    .ok (b.toNat + 2 ^ 8 * v, rest)

namespace FP

/-- `From<Compact<FixedPoint>> for FixedPoint`, `/repo/src/parity.rs:9-14`: unwraps the newtype. -/
def fromCompact (value : FP L P) : FP L P := value

/-- `CompactAs::encode_as`, `/repo/src/parity.rs:52-59`: the raw word read as the unsigned type of
the same width (same size and alignment are asserted at compile time, and hold). -/
def encodeAs (x : FP L P) : BitVec L.bits := x.asBits

/-- `CompactAs::decode_from`, `/repo/src/parity.rs:62-64`. -/
def decodeFrom (value : BitVec L.bits) : Res CodecErr (FP L P) := .ok (fromBits value)

/-- `Encode::encode_to`, `/repo/src/parity.rs:29-31`; the result is `destination` afterwards. -/
def encodeTo (x : FP L P) (destination : List (BitVec 8)) : List (BitVec 8) :=
  destination ++ encodeLe (L.bits / 8) (encodeAs x).toNat

/-- `Encode::encode`: the provided method, `encode_to` an empty vector.  It calls
`/repo/src/parity.rs:29-31`. -/
def encode (x : FP L P) : List (BitVec 8) := encodeTo x []

/-- `Decode::decode`, `/repo/src/parity.rs:38-43`; the pair is the value and the remaining input. -/
def decode (input : List (BitVec 8)) : Res CodecErr (FP L P × List (BitVec 8)) :=
  mapErr
    (do
      let (v, rest) ← decodeLe (L.bits / 8) input
      let fp ← decodeFrom (BitVec.ofNat L.bits v)
      .ok (fp, rest))
    fun _ => ⟨"Error decoding FixedPoint value"⟩

end FP

end Fixnum
