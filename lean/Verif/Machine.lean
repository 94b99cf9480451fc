import Mathlib.Tactic.Linarith
import Mathlib.Tactic.Ring
import Mathlib.Tactic.LinearCombination
import Mathlib.Data.Int.Sqrt

/-!
# Rust machine integers, outcomes and build profiles

This file models the parts of the Rust language and of `core` that the crate `/repo/src` uses.
It models no line of `/repo` itself; each definition says which Rust construct it stands for and where
`/repo` uses it.
-/

namespace Fixnum

/-- Build configuration of the crate: `overflowChecks` is rustc's `-C overflow-checks`,
`debugAssertions` is `-C debug-assertions`, `std` and `i128` are the cargo features
(`/repo/Cargo.toml:33-43`). -/
structure Cfg where
  overflowChecks : Bool
  debugAssertions : Bool
  std : Bool
  i128 : Bool
deriving DecidableEq, Repr

/-- How a Rust evaluation can fail to produce a value: a panic, an infinite loop, or undefined
behaviour (only reachable through the `unsafe` blocks of `/repo/src/string.rs:157,166,174`). -/
inductive Fault
  | panic
  | diverge
  | ub
deriving DecidableEq, Repr

/-- Outcome of a Rust function returning `Result<α, ε>`.  The signatures it stands for are e.g.
`/repo/src/lib.rs:275,379,411`. -/
inductive Res (ε α : Type)
  | ok (a : α)
  | err (e : ε)
  | fault (f : Fault)
deriving DecidableEq, Repr

namespace Res

variable {ε ε' α β : Type}

/-- Sequencing; `err` is propagated as by the `?` operator, `fault` aborts.  `?` as at
`/repo/src/lib.rs:285`. -/
@[inline] def bind (x : Res ε α) (f : α → Res ε β) : Res ε β :=
  match x with
  | ok a => f a
  | err e => err e
  | fault k => fault k

/-- `do` notation for `?`, as at `/repo/src/lib.rs:285`. -/
instance : Monad (Res ε) where
  pure := ok
  bind := bind

/-- A panic (`panic!`, failed `assert!`, failed `unwrap`, overflow with checks on, …).  As at
`/repo/src/lib.rs:288,555`. -/
abbrev panic : Res ε α := fault .panic

/-- `Result::unwrap`: an error becomes a panic.  Used at `/repo/src/lib.rs:288,329,469`. -/
def unwrap (x : Res ε α) : Res ε' α :=
  match x with
  | ok a => ok a
  | err _ => fault .panic
  | fault k => fault k

/-- `Result::map_err`.  Used at `/repo/src/lib.rs:285,326,730`. -/
def mapErr (x : Res ε α) (f : ε → ε') : Res ε' α :=
  match x with
  | ok a => ok a
  | err e => err (f e)
  | fault k => fault k

/-- `Result::map`.  Used at `/repo/src/lib.rs:357,380,396`. -/
def mapOk (x : Res ε α) (f : α → β) : Res ε β :=
  match x with
  | ok a => ok (f a)
  | err e => err e
  | fault k => fault k

/-- `Result::unwrap_or`.  Used at `/repo/src/ops/mod.rs:89,161,237,336`. -/
def unwrapOr (x : Res ε α) (d : α) : Res ε' α :=
  match x with
  | ok a => ok a
  | err _ => ok d
  | fault k => fault k

/-- `Option::ok_or`.  Used at `/repo/src/lib.rs:299,342,462`. -/
def ofOption (e : ε) : Option α → Res ε α
  | some a => ok a
  | none => err e

/-- The evaluation returned (a value or an `Err`): no panic, no divergence, no UB.  Specification;
models no line of `/repo`. -/
def Returns : Res ε α → Prop
  | ok _ => True
  | err _ => True
  | fault _ => False

-- The proofs below are `id rfl` rather than `rfl` so that `simp` rewrites with them
-- propositionally instead of by definitional unfolding.
@[simp] theorem pure_eq (a : α) : (pure a : Res ε α) = ok a := id rfl
@[simp] theorem ok_bind (a : α) (f : α → Res ε β) : (ok a >>= f) = f a := id rfl
@[simp] theorem err_bind (e : ε) (f : α → Res ε β) : ((err e : Res ε α) >>= f) = err e := id rfl
@[simp] theorem fault_bind (k : Fault) (f : α → Res ε β) :
    ((fault k : Res ε α) >>= f) = fault k := id rfl
@[simp] theorem map_eq' (f : α → β) (x : Res ε α) :
    (f <$> x) = x >>= fun a => ok (f a) := id rfl
@[simp] theorem unwrap_ok (a : α) : (unwrap (ok a : Res ε α) : Res ε' α) = ok a := id rfl
@[simp] theorem unwrap_err (e : ε) : (unwrap (err e : Res ε α) : Res ε' α) = fault .panic := id rfl
@[simp] theorem unwrap_fault (k : Fault) :
    (unwrap (fault k : Res ε α) : Res ε' α) = fault k := id rfl
@[simp] theorem mapErr_ok (a : α) (f : ε → ε') : mapErr (ok a : Res ε α) f = ok a := id rfl
@[simp] theorem mapErr_err (e : ε) (f : ε → ε') : mapErr (err e : Res ε α) f = err (f e) := id rfl
@[simp] theorem mapErr_fault (k : Fault) (f : ε → ε') :
    mapErr (fault k : Res ε α) f = fault k := id rfl
@[simp] theorem mapOk_ok (a : α) (f : α → β) : mapOk (ok a : Res ε α) f = ok (f a) := id rfl
@[simp] theorem mapOk_err (e : ε) (f : α → β) : mapOk (err e : Res ε α) f = err e := id rfl
@[simp] theorem mapOk_fault (k : Fault) (f : α → β) :
    mapOk (fault k : Res ε α) f = fault k := id rfl
@[simp] theorem unwrapOr_ok (a d : α) : (unwrapOr (ok a : Res ε α) d : Res ε' α) = ok a := id rfl
@[simp] theorem unwrapOr_err (e : ε) (d : α) :
    (unwrapOr (err e : Res ε α) d : Res ε' α) = ok d := id rfl
@[simp] theorem unwrapOr_fault (k : Fault) (d : α) :
    (unwrapOr (fault k : Res ε α) d : Res ε' α) = fault k := id rfl
@[simp] theorem ofOption_some (e : ε) (a : α) : ofOption e (some a) = ok a := id rfl
@[simp] theorem ofOption_none (e : ε) : (ofOption e none : Res ε α) = err e := id rfl
@[simp] theorem returns_ok (a : α) : Returns (ok a : Res ε α) ↔ True := Iff.rfl
@[simp] theorem returns_err (e : ε) : Returns (err e : Res ε α) ↔ True := Iff.rfl
@[simp] theorem returns_fault (k : Fault) : Returns (fault k : Res ε α) ↔ False := Iff.rfl

end Res

open Res

variable {ε : Type}

/-- `debug_assert!(b)`.  Used at `/repo/src/string.rs:79,91,154`. -/
def debugAssert (cfg : Cfg) (b : Bool) : Res ε Unit :=
  if cfg.debugAssertions && !b then .panic else .ok ()

/-- `assert!(b)`.  Used at `/repo/src/lib.rs:555,695`. -/
def rustAssert (b : Bool) : Res ε Unit := if b then .ok () else .panic

/-! ## Signed two's-complement integers of `w` bits (`i8 … i128`): `BitVec w` read by `toInt` -/

/-- `iN::MIN` as a number.  Used at `/repo/src/lib.rs:265`. -/
def iMin (w : Nat) : Int := -(2 ^ (w - 1))
/-- `iN::MAX` as a number.  Used at `/repo/src/lib.rs:266`. -/
def iMax (w : Nat) : Int := 2 ^ (w - 1) - 1

/-- The mathematical integer `z` is representable in `w` bits, signed.  Auxiliary to the definitions
below; models no line of `/repo`. -/
def Fits (w : Nat) (z : Int) : Prop := iMin w ≤ z ∧ z ≤ iMax w

instance (w : Nat) (z : Int) : Decidable (Fits w z) := by unfold Fits; infer_instance

namespace SInt

variable {w : Nat}

/-- Result of a plain `+ - * neg …` whose exact mathematical value is `z`:
panics on overflow iff overflow checks are on, wraps otherwise.  As at
`/repo/src/lib.rs:289,292,336`. -/
def arith (cfg : Cfg) (w : Nat) (z : Int) : Res ε (BitVec w) :=
  if Fits w z then .ok (BitVec.ofInt w z)
  else if cfg.overflowChecks then .panic else .ok (BitVec.ofInt w z)

/-- `a + b`.  Used at `/repo/src/lib.rs:292,336,474`. -/
def add (cfg : Cfg) (a b : BitVec w) : Res ε (BitVec w) := arith cfg w (a.toInt + b.toInt)
/-- `a - b`.  Used at `/repo/src/lib.rs:282,473`. -/
def sub (cfg : Cfg) (a b : BitVec w) : Res ε (BitVec w) := arith cfg w (a.toInt - b.toInt)
/-- `a * b`.  Used at `/repo/src/lib.rs:279,289`, `/repo/src/string.rs:89`. -/
def mul (cfg : Cfg) (a b : BitVec w) : Res ε (BitVec w) := arith cfg w (a.toInt * b.toInt)
/-- `-a`.  Used at `/repo/src/lib.rs:249`. -/
def neg (cfg : Cfg) (a : BitVec w) : Res ε (BitVec w) := arith cfg w (-a.toInt)
/-- `a.abs()` (overflows for `MIN`).  Used at `/repo/src/lib.rs:335,336,503`. -/
def abs (cfg : Cfg) (a : BitVec w) : Res ε (BitVec w) := arith cfg w |a.toInt|
/-- `a.pow(n)`; the square-and-multiply loop of `core` overflows iff the exact power does.  Used at
`/repo/src/lib.rs:674`, `/repo/src/string.rs:73`. -/
def pow (cfg : Cfg) (a : BitVec w) (n : Nat) : Res ε (BitVec w) := arith cfg w (a.toInt ^ n)

/-- `a / b`: panics for `b = 0` and for `MIN / -1` in every profile.  Used at
`/repo/src/lib.rs:281,503`. -/
def div (a b : BitVec w) : Res ε (BitVec w) :=
  if b.toInt = 0 then .panic
  else if Fits w (a.toInt.tdiv b.toInt) then .ok (BitVec.ofInt w (a.toInt.tdiv b.toInt))
  else .panic

/-- `a % b`: panics for `b = 0` and for `MIN % -1` in every profile.  Used at
`/repo/src/lib.rs:503`, `/repo/src/string.rs:112`. -/
def rem (a b : BitVec w) : Res ε (BitVec w) :=
  if b.toInt = 0 then .panic
  else if Fits w (a.toInt.tdiv b.toInt) then .ok (BitVec.ofInt w (a.toInt.tmod b.toInt))
  else .panic

/-- `Some(z)` when representable; the shape shared by the `checked_*` methods, e.g. at
`/repo/src/lib.rs:299`. -/
def checked (w : Nat) (z : Int) : Option (BitVec w) :=
  if Fits w z then some (BitVec.ofInt w z) else none

/-- `a.checked_add(b)`.  Used at `/repo/src/lib.rs:299,342`, `/repo/src/ops/mod.rs:406`. -/
def checkedAdd (a b : BitVec w) : Option (BitVec w) := checked w (a.toInt + b.toInt)
/-- `a.checked_sub(b)`.  Used at `/repo/src/ops/mod.rs:421`. -/
def checkedSub (a b : BitVec w) : Option (BitVec w) := checked w (a.toInt - b.toInt)
/-- `a.checked_mul(b)`.  Used at `/repo/src/lib.rs:541,677,731`, `/repo/src/ops/mod.rs:436`. -/
def checkedMul (a b : BitVec w) : Option (BitVec w) := checked w (a.toInt * b.toInt)
/-- `a.checked_neg()`.  Used at `/repo/src/lib.rs:460`, `/repo/src/float.rs:178`. -/
def checkedNeg (a : BitVec w) : Option (BitVec w) := checked w (-a.toInt)
/-- `a.checked_div(b)`: `None` for `b = 0` and on overflow.  Used at `/repo/src/lib.rs:540`. -/
def checkedDiv (a b : BitVec w) : Option (BitVec w) :=
  if b.toInt = 0 then none else checked w (a.toInt.tdiv b.toInt)

/-- Clamping to the range, the shape shared by the `saturating_*` methods, e.g. at
`/repo/src/lib.rs:385`. -/
def saturate (w : Nat) (z : Int) : BitVec w :=
  BitVec.ofInt w (if z < iMin w then iMin w else if iMax w < z then iMax w else z)

/-- `a.saturating_add(b)`.  Used at `/repo/src/lib.rs:385`, `/repo/src/ops/mod.rs:411`. -/
def saturatingAdd (a b : BitVec w) : BitVec w := saturate w (a.toInt + b.toInt)
/-- `a.saturating_sub(b)`.  Used at `/repo/src/lib.rs:401`, `/repo/src/ops/mod.rs:426`. -/
def saturatingSub (a b : BitVec w) : BitVec w := saturate w (a.toInt - b.toInt)
/-- `a.saturating_mul(b)`.  Used at `/repo/src/lib.rs:417,433`. -/
def saturatingMul (a b : BitVec w) : BitVec w := saturate w (a.toInt * b.toInt)

/-- `a.signum()`.  Used at `/repo/src/lib.rs:289,332,445`. -/
def signum (a : BitVec w) : BitVec w := BitVec.ofInt w a.toInt.sign

/-- `a as iM`, sign-extending or truncating.  As `From` between integers at `/repo/src/lib.rs:279`,
`/repo/src/macros.rs:26`. -/
def cast {w : Nat} (w' : Nat) (a : BitVec w) : BitVec w' := BitVec.ofInt w' a.toInt

/-- `iM::try_from(z)` for a source integer whose mathematical value is `z`.  Used at
`/repo/src/lib.rs:285,288,326`. -/
def tryFrom (w : Nat) (z : Int) : Option (BitVec w) := checked w z

/-- `a.leading_zeros()`.  Used at `/repo/src/lib.rs:554`. -/
def leadingZeros (a : BitVec w) : Nat := if a.toNat = 0 then w else w - 1 - Nat.log2 a.toNat

end SInt

/-! ## Unsigned integers of `w` bits (`u64`, `u128`): `BitVec w` read by `toNat` -/

namespace UInt

variable {w : Nat}

/-- Unsigned analogue of `SInt.arith` for a mathematical result `z`.  As at
`/repo/src/i256/u256.rs:312,404`. -/
def arith (cfg : Cfg) (w : Nat) (z : Int) : Res ε (BitVec w) :=
  if 0 ≤ z ∧ z < 2 ^ w then .ok (BitVec.ofInt w z)
  else if cfg.overflowChecks then .panic else .ok (BitVec.ofInt w z)

/-- `a + b`.  Used at `/repo/src/i256/u256.rs:534,553`. -/
def add (cfg : Cfg) (a b : BitVec w) : Res ε (BitVec w) := arith cfg w (a.toNat + b.toNat)
/-- `a - b`.  Used at `/repo/src/i256/u256.rs:530,533`. -/
def sub (cfg : Cfg) (a b : BitVec w) : Res ε (BitVec w) := arith cfg w (a.toNat - b.toNat)
/-- `a * b`.  Used at `/repo/src/i256/u256.rs:530,532,553`. -/
def mul (cfg : Cfg) (a b : BitVec w) : Res ε (BitVec w) := arith cfg w (a.toNat * b.toNat)
/-- `a / b`: panics for `b = 0`.  Used at `/repo/src/i256/u256.rs:529,541`. -/
def div (a b : BitVec w) : Res ε (BitVec w) :=
  if b.toNat = 0 then .panic else .ok (BitVec.ofNat w (a.toNat / b.toNat))
/-- `a << s`: a shift by `≥ w` panics with overflow checks and masks the amount otherwise.  Used at
`/repo/src/i256/u256.rs:524,526,527`. -/
def shl (cfg : Cfg) (a : BitVec w) (s : Nat) : Res ε (BitVec w) :=
  if s < w then .ok (a <<< s) else if cfg.overflowChecks then .panic else .ok (a <<< (s % w))
/-- `a >> s`.  Used at `/repo/src/i256/u256.rs:553`. -/
def shr (cfg : Cfg) (a : BitVec w) (s : Nat) : Res ε (BitVec w) :=
  if s < w then .ok (a >>> s) else if cfg.overflowChecks then .panic else .ok (a >>> (s % w))

/-- `a.overflowing_add(b)`.  Used at `/repo/src/i256/u256.rs:90,98,99,405`. -/
def overflowingAdd (a b : BitVec w) : BitVec w × Bool :=
  (a + b, decide (2 ^ w ≤ a.toNat + b.toNat))
/-- `a.overflowing_sub(b)`.  Used at `/repo/src/i256/u256.rs:504,563`. -/
def overflowingSub (a b : BitVec w) : BitVec w × Bool :=
  (a - b, decide (a.toNat < b.toNat))

/-- `a.leading_zeros()`.  Used at `/repo/src/i256/u256.rs:312,314,374`. -/
def leadingZeros (a : BitVec w) : Nat := if a.toNat = 0 then w else w - 1 - Nat.log2 a.toNat

end UInt

/-! ## Basic facts -/

theorem toInt_fits {w : Nat} (a : BitVec w) : Fits w a.toInt := by
  unfold Fits iMin iMax
  have h1 := BitVec.le_toInt a
  have h2 := BitVec.toInt_lt (x := a)
  constructor <;> linarith

theorem toInt_ofInt_of_fits {w : Nat} (hw : 0 < w) {z : Int} (h : Fits w z) :
    (BitVec.ofInt w z).toInt = z := by
  obtain ⟨h1, h2⟩ := h
  unfold iMin at h1
  unfold iMax at h2
  obtain ⟨k, rfl⟩ : ∃ k, w = k + 1 := ⟨w - 1, by omega⟩
  simp only [Nat.add_sub_cancel] at h1 h2
  rw [BitVec.toInt_ofInt]
  have hp : (2:Int)^(k+1) = 2 * 2^k := by ring
  apply Int.bmod_eq_of_le <;> (push_cast; rw [hp]; omega)

theorem ofInt_toInt' {w : Nat} (a : BitVec w) : BitVec.ofInt w a.toInt = a :=
  BitVec.ofInt_toInt

theorem toInt_inj' {w : Nat} {a b : BitVec w} (h : a.toInt = b.toInt) : a = b :=
  BitVec.eq_of_toInt_eq h

namespace SInt

variable {w : Nat}

theorem arith_fits (cfg : Cfg) {z : Int} (h : Fits w z) :
    (arith cfg w z : Res ε (BitVec w)) = .ok (BitVec.ofInt w z) := by
  simp [arith, h]

theorem arith_wrap (cfg : Cfg) {z : Int} (h : cfg.overflowChecks = false) :
    (arith cfg w z : Res ε (BitVec w)) = .ok (BitVec.ofInt w z) := by
  simp [arith, h]

theorem arith_panic (cfg : Cfg) {z : Int} (hz : ¬ Fits w z) (h : cfg.overflowChecks = true) :
    (arith cfg w z : Res ε (BitVec w)) = .panic := by
  simp [arith, h, hz]

theorem checked_fits {z : Int} (h : Fits w z) : checked w z = some (BitVec.ofInt w z) := by
  simp [checked, h]

theorem checked_not {z : Int} (h : ¬ Fits w z) : checked w z = none := by
  simp [checked, h]

theorem sign_fits (hw : 1 < w) (z : Int) : Fits w z.sign := by
  have hp : (2:Int) ≤ 2^(w-1) := by
    calc (2:Int) = 2^1 := by norm_num
      _ ≤ 2^(w-1) := pow_le_pow_right₀ (by norm_num) (by omega)
  unfold Fits iMin iMax
  rcases lt_trichotomy z 0 with h | h | h
  · rw [Int.sign_eq_neg_one_of_neg h]; constructor <;> linarith
  · subst h; simp; linarith
  · rw [Int.sign_eq_one_of_pos h]; constructor <;> linarith

theorem signum_toInt (hw : 1 < w) (a : BitVec w) : (signum a).toInt = a.toInt.sign :=
  toInt_ofInt_of_fits (by omega) (sign_fits hw _)

end SInt

end Fixnum
