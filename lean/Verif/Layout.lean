import Verif.Errors

/-!
# Layouts, the fixed-point type and the rounding modes

Model of the type declarations of `/repo/src/lib.rs` and `/repo/src/ops/mod.rs`.
-/

namespace Fixnum

/-- `enum RoundMode`, `/repo/src/ops/mod.rs:248-257`. -/
inductive RoundMode
  | ceil
  | nearest
  | floor
deriving DecidableEq, Repr

/-- `mode as i32`: the discriminants of `/repo/src/ops/mod.rs:250-256`. -/
def RoundMode.disc : RoundMode → Int
  | .ceil => 1
  | .nearest => 0
  | .floor => -1

/-- The four instantiations of `impl_fixed_point!`, `/repo/src/lib.rs:745-776`. -/
inductive Layout
  | i16
  | i32
  | i64
  | i128
deriving DecidableEq, Repr

/-- Width of the layout type.  `/repo/src/lib.rs:748,756,764,772`. -/
def Layout.bits : Layout → Nat
  | .i16 => 16
  | .i32 => 32
  | .i64 => 64
  | .i128 => 128

/-- `struct FixedPoint<I, P>`, `/repo/src/lib.rs:197-206`: the raw two's-complement word `inner`.
`P` is the number given by the typenum parameter (`P::I32`). -/
@[ext] structure FP (L : Layout) (P : Nat) where
  inner : BitVec L.bits
deriving DecidableEq

namespace FP

variable {L : Layout} {P : Nat}

/-- `from_bits`, `/repo/src/lib.rs:214-219`. -/
def fromBits (raw : BitVec L.bits) : FP L P := ⟨raw⟩

/-- `as_bits`, `/repo/src/lib.rs:222-224` (a shared reference is its value). -/
def asBits (x : FP L P) : BitVec L.bits := x.inner

/-- `into_bits`, `/repo/src/lib.rs:227-230`. -/
def intoBits (x : FP L P) : BitVec L.bits := x.inner

end FP

end Fixnum
