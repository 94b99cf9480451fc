import Verif.Codec

/-!
# Compact SCALE encoding

`/repo/src/parity.rs:47-65` implements `CompactAs`, by which the crate `parity-scale-codec` gives
`Compact<FixedPoint<..>>` its encoding: that of `Compact` of the unsigned integer of the same width.
The variable-length format of `Compact<u16 … u128>` is external; it is modelled here after its
documentation (SCALE "compact/general integers") and the reference decoder of version 3, which
refuses an integer that is not written in the shortest way.  The four implementations (for 2, 4, 8
and 16 bytes) are written as one with the width `n` in bytes as parameter; where they are worded
differently for a width, the difference is stated.
-/

namespace Fixnum

open Res

variable {L : Layout} {P : Nat}

/-- `<Compact<uN> as Encode>::encode`, external crate.  The two low bits of the first byte are the
mode: one byte, two bytes, four bytes, or a count of bytes minus four.  (For `u16` the last mode
cannot occur, for `u32` the count is always four; the crate leaves these branches out.)  It encodes
the result of `encode_as`, `/repo/src/parity.rs:52-59`. -/
def compactEncode (n v : Nat) : List (BitVec 8) :=
  if v ≤ 0b00111111 then [BitVec.ofNat 8 (v * 4)]
  else if v ≤ 0b0011111111111111 then encodeLe 2 (v * 4 + 0b01)
  else if v ≤ 0b00111111111111111111111111111111 then encodeLe 4 (v * 4 + 0b10)
  else
    let leadingZeros := 8 * n - 1 - v.log2
    let bytesNeeded := n - leadingZeros / 8
    BitVec.ofNat 8 (0b11 + (bytesNeeded - 4) * 4) :: encodeLe bytesNeeded v

/-- `<Compact<uN> as Decode>::decode`, external crate; the pair is the integer and the remaining
input.  Every mode refuses a number that a shorter one could hold.  Its result goes to
`decode_from`, `/repo/src/parity.rs:62-64`. -/
def compactDecode (n : Nat) (input : List (BitVec 8)) : Res CodecErr (Nat × List (BitVec 8)) :=
  match input with
  | [] => .err ⟨"Not enough data to fill buffer"⟩
  | prefix_ :: rest =>
    match prefix_.toNat % 4 with
    | 0 => .ok (prefix_.toNat / 4, rest)
    | 1 => do
      let (w, r) ← decodeLe 2 (prefix_ :: rest)
      let x := w / 4
      if 0b00111111 < x ∧ x ≤ 0b0011111111111111 then .ok (x, r)
      else .err ⟨"out of range decoding Compact"⟩
    | 2 => do
      let (w, r) ← decodeLe 4 (prefix_ :: rest)
      let x := w / 4
      if 0b0011111111111111 < x ∧ x ≤ 0b00111111111111111111111111111111 ∧ x < 2 ^ (8 * n) then
        .ok (x, r)
      else .err ⟨"out of range decoding Compact"⟩
    | _ =>
      let bytesNeeded := prefix_.toNat / 4 + 4
      if n < bytesNeeded then .err ⟨"unexpected prefix decoding Compact"⟩
      else do
        let (x, r) ← decodeLe bytesNeeded rest
        let least := if bytesNeeded = 4 then 0b00111111111111111111111111111111
          else (2 ^ (8 * n) - 1) >>> ((n - bytesNeeded + 1) * 8)
        if least < x then .ok (x, r) else .err ⟨"out of range decoding Compact"⟩

namespace FP

/-- `<Compact<FixedPoint> as Encode>::encode`: provided by the external crate for every `CompactAs`
type as the compact encoding of `encode_as()` (`/repo/src/parity.rs:52-59`). -/
def encodeCompact (x : FP L P) : List (BitVec 8) := compactEncode (L.bits / 8) (encodeAs x).toNat

/-- `<Compact<FixedPoint> as Decode>::decode`: provided by the external crate, `decode_from`
(`/repo/src/parity.rs:62-64`) of the integer; then `From<Compact<Self>>` (9-14). -/
def decodeCompact (input : List (BitVec 8)) : Res CodecErr (FP L P × List (BitVec 8)) := do
  let (v, rest) ← compactDecode (L.bits / 8) input
  let fp ← decodeFrom (BitVec.ofNat L.bits v)
  .ok (fromCompact fp, rest)

end FP

end Fixnum
