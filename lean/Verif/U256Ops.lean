import Verif.U256

/-!
# Operators and conversions of `U256` that the crate does not call

The rest of the private type `U256`, `/repo/src/i256/u256.rs`.  The variants taking references
(159-190, 213-241, 679-685, 731-736, 770-775) and the assigning ones (192-197, 243-248, 687-691,
738-742, 777-781) dereference and call the modelled ones, so they are not repeated.
-/

namespace Fixnum

open Res

variable {ε : Type}

namespace U256

/-- `From<u64>`, `/repo/src/i256/u256.rs:625-631`; `From<u32>` (`654`, `impl_map_from!` 11-19) goes through it. -/
def ofU64 (v : W64) : U256 := ⟨v, 0, 0, 0⟩

/-- `From<i64>`, `/repo/src/i256/u256.rs:656-663`: panics for negative numbers. -/
def ofI64 (v : W64) : Res ε U256 := if 0 ≤ v.toInt then .ok (ofU64 v) else .panic

/-- `as_usize`, `/repo/src/i256/u256.rs:290-297`; `pw` is the width of `usize` (16, 32 or 64). -/
def asUsize (pw : Nat) (x : U256) : Res ε Nat :=
  if !x.fitsWord || decide (2 ^ pw - 1 < x.w0.toNat) then .panic else .ok x.w0.toNat

/-- `impl<T: Into<U256>> Shl<T>`, `/repo/src/i256/u256.rs:707-730`, with its conversion of the shift. -/
def shlBy (cfg : Cfg) (pw : Nat) (x shift : U256) : Res ε U256 := do
  let s ← asUsize pw shift
  shl cfg x s

/-- `impl<T: Into<U256>> Shr<T>`, `/repo/src/i256/u256.rs:744-769`. -/
def shrBy (cfg : Cfg) (pw : Nat) (x shift : U256) : Res ε U256 := do
  let s ← asUsize pw shift
  shr cfg x s

/-- `Mul<u64>`, `Mul<usize>`, `/repo/src/i256/u256.rs:203-211` (`impl_mul_for_primitive!` 667-668): panics on a
carry in every build. -/
def mulPrim (cfg : Cfg) (x : U256) (v : W64) : Res ε U256 := do
  let rc ← overflowingMulU64 cfg x v
  if 0 < rc.2.toNat then .panic else .ok rc.1

end U256

end Fixnum
