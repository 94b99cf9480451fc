import Verif.FixedPoint

/-!
# `impl_op!`

Model of `/repo/src/macros.rs:5-150`: the trait `Operand` and the operations that `impl_op!` defines
for wrapper types.  The trait impls that make an invocation compile are data here: a value of
`Operand`, `AddImpl`, … is one `impl`, so "for every such value" reads "for every invocation that
compiles".  The wrappers are tuple structs with one field (`self.0`), `$res` is the constructor, and
`$res::from` (the user's `From` impl, used by `@method`) is taken to be the constructor too, as
`derive_more::From` makes it (`Wrap.lean` has other conversions).
-/

namespace Fixnum

open Res

/-- The widths of the types of `impl_for_ints!(i8, i16, i32, i64, i128)`,
`/repo/src/ops/mod.rs:479`, and of `impl_int_operand!`, `/repo/src/macros.rs:45-49`. -/
def intWidths : List Nat := [8, 16, 32, 64, 128]

/-- The types of the wrapped field.  `/repo/src/macros.rs:11,22`. -/
inductive OpTy
  | fp (L : Layout) (P : Nat)
  | int (w : Nat)

/-- Their values.  `/repo/src/macros.rs:11,22`. -/
@[reducible] def OpTy.den : OpTy → Type
  | .fp L P => FP L P
  | .int w => BitVec w

/-- A wrapper `struct W(T)`.  `/repo/src/macros.rs:137,138,148`. -/
structure Wrapper (t : OpTy) where
  val : t.den

/-- The impls `Operand<I> for T` with `Promotion = A`, `/repo/src/macros.rs:12-49`: a fixed-point
number for its own type; an integer for an integer type at least as wide; an integer for a
fixed-point type whose layout is at least as wide. -/
inductive Operand : (T I A : OpTy) → Type
  | self (L : Layout) (P : Nat) : Operand (.fp L P) (.fp L P) (.fp L P)
  | int (w v : Nat) (hw : w ∈ intWidths) (hv : v ∈ intWidths) (h : w ≤ v) :
      Operand (.int w) (.int v) (.int v)
  | intFp (w : Nat) (L : Layout) (P : Nat) (hw : w ∈ intWidths) (h : w ≤ L.bits) :
      Operand (.int w) (.fp L P) (.int L.bits)

/-- `promote`, `/repo/src/macros.rs:14-17,24-27,35-38`; `self.into()` between integers is the
lossless conversion. -/
def Operand.promote {T I A : OpTy} : Operand T I A → T.den → A.den
  | .self _ _, x => x
  | .int _ v _ _ _, x => SInt.cast v x
  | .intFp _ L _ _ _, x => SInt.cast L.bits x

/-- `TryInto<I>` for the promoted left operand in `rdiv` with its error mapped to `Overflow`,
`/repo/src/macros.rs:125-127`: the reflexive conversions, and `TryFrom` of an integer for a
fixed-point number. -/
def Operand.tryInto {T I A : OpTy} (cfg : Cfg) : Operand T I A → A.den → Res ArithErr I.den
  | .self _ _, x => .ok x
  | .int _ _ _ _ _, x => .ok x
  | .intFp _ L P _ _, x =>
    mapErr (FP.tryFromInt (L := L) (P := P) cfg (BitVec.toInt x)) fun _ => .overflow

/-- The impls `CheckedAdd<B> for A` and `CheckedSub<B> for A` with `Output = I`.
`/repo/src/lib.rs:374,390`, `/repo/src/ops/mod.rs:400,415`. -/
inductive AddImpl : (A B I : OpTy) → Type
  | fp (L : Layout) (P : Nat) : AddImpl (.fp L P) (.fp L P) (.fp L P)
  | int (w : Nat) (hw : w ∈ intWidths) : AddImpl (.int w) (.int w) (.int w)

/-- `cadd`, `/repo/src/lib.rs:379-381`, `/repo/src/ops/mod.rs:405-407`. -/
def AddImpl.cadd {A B I : OpTy} : AddImpl A B I → A.den → B.den → Res ArithErr I.den
  | .fp _ _, a, b => FP.cadd a b
  | .int _ _, a, b => SInt.cadd a b

/-- `saturating_add`, `/repo/src/lib.rs:384-386`, `/repo/src/ops/mod.rs:410-412`. -/
def AddImpl.saturatingAdd {A B I : OpTy} : AddImpl A B I → A.den → B.den → I.den
  | .fp _ _, a, b => FP.saturatingAdd a b
  | .int _ _, a, b => SInt.saturatingAdd a b

/-- `csub`, `/repo/src/lib.rs:395-397`, `/repo/src/ops/mod.rs:420-422`. -/
def AddImpl.csub {A B I : OpTy} : AddImpl A B I → A.den → B.den → Res ArithErr I.den
  | .fp _ _, a, b => FP.csub a b
  | .int _ _, a, b => SInt.csub a b

/-- `saturating_sub`, `/repo/src/lib.rs:400-402`, `/repo/src/ops/mod.rs:425-427`. -/
def AddImpl.saturatingSub {A B I : OpTy} : AddImpl A B I → A.den → B.den → I.den
  | .fp _ _, a, b => FP.saturatingSub a b
  | .int _ _, a, b => SInt.saturatingSub a b

/-- The impls `CheckedMul<B> for A` with `Output = I`: `/repo/src/lib.rs:406,422`,
`/repo/src/ops/mod.rs:430`. -/
inductive CmulImpl : (A B I : OpTy) → Type
  | fpInt (L : Layout) (P : Nat) : CmulImpl (.fp L P) (.int L.bits) (.fp L P)
  | intFp (L : Layout) (P : Nat) : CmulImpl (.int L.bits) (.fp L P) (.fp L P)
  | int (w : Nat) (hw : w ∈ intWidths) : CmulImpl (.int w) (.int w) (.int w)

/-- `cmul`.  `/repo/src/lib.rs:411-413,427-429`, `/repo/src/ops/mod.rs:435-437`. -/
def CmulImpl.cmul {A B I : OpTy} : CmulImpl A B I → A.den → B.den → Res ArithErr I.den
  | .fpInt _ _, a, b => FP.cmul a b
  | .intFp _ _, a, b => FP.intCmul a b
  | .int _ _, a, b => SInt.cmul a b

/-- The impls `RoundingMul<B> for A` with `Output = I`: `/repo/src/lib.rs:270`. -/
inductive RmulImpl : (A B I : OpTy) → Type
  | fp (L : Layout) (P : Nat) : RmulImpl (.fp L P) (.fp L P) (.fp L P)

/-- `rmul`.  `/repo/src/lib.rs:275-303`. -/
def RmulImpl.rmul {A B I : OpTy} (cfg : Cfg) :
    RmulImpl A B I → A.den → B.den → RoundMode → Res ArithErr I.den
  | .fp _ _, a, b, mode => FP.rmul cfg a b mode

/-- The impls `RoundingDiv<B> for I` with `Output = I`: `/repo/src/lib.rs:307,351`,
`/repo/src/ops/mod.rs:445`. -/
inductive RdivImpl : (B I : OpTy) → Type
  | fp (L : Layout) (P : Nat) : RdivImpl (.fp L P) (.fp L P)
  | fpInt (L : Layout) (P : Nat) : RdivImpl (.int L.bits) (.fp L P)
  | int (w : Nat) (hw : w ∈ intWidths) : RdivImpl (.int w) (.int w)

/-- `rdiv`.  `/repo/src/lib.rs:312-347,356-358`, `/repo/src/ops/mod.rs:450-475`. -/
def RdivImpl.rdiv {B I : OpTy} (cfg : Cfg) :
    RdivImpl B I → I.den → B.den → RoundMode → Res ArithErr I.den
  | .fp _ _, a, b, mode => FP.rdiv cfg a b mode
  | .fpInt _ _, a, b, mode => FP.rdivInt cfg a b mode
  | .int _ _, a, b, mode => SInt.rdiv cfg a b mode

namespace ImplOp

variable {S T I A B : OpTy} {ε : Type}

/-- `impl_op!(S [cadd] T = I)`: `cadd`, `/repo/src/macros.rs:60-62,141-149`. -/
def cadd (l : Operand S I A) (r : Operand T I B) (im : AddImpl A B I) (lhs : Wrapper S)
    (rhs : Wrapper T) : Res ArithErr (Wrapper I) :=
  mapOk (im.cadd (l.promote lhs.val) (r.promote rhs.val)) Wrapper.mk

/-- `saturating_add`, `/repo/src/macros.rs:65-67,132-140`. -/
def saturatingAdd (l : Operand S I A) (r : Operand T I B) (im : AddImpl A B I) (lhs : Wrapper S)
    (rhs : Wrapper T) : Wrapper I :=
  ⟨im.saturatingAdd (l.promote lhs.val) (r.promote rhs.val)⟩

/-- `impl_op!(S [csub] T = I)`: `csub`, `/repo/src/macros.rs:76-78`. -/
def csub (l : Operand S I A) (r : Operand T I B) (im : AddImpl A B I) (lhs : Wrapper S)
    (rhs : Wrapper T) : Res ArithErr (Wrapper I) :=
  mapOk (im.csub (l.promote lhs.val) (r.promote rhs.val)) Wrapper.mk

/-- `saturating_sub`, `/repo/src/macros.rs:81-83`. -/
def saturatingSub (l : Operand S I A) (r : Operand T I B) (im : AddImpl A B I) (lhs : Wrapper S)
    (rhs : Wrapper T) : Wrapper I :=
  ⟨im.saturatingSub (l.promote lhs.val) (r.promote rhs.val)⟩

/-- `impl_op!(S [cmul] T = I)`: `cmul`, `/repo/src/macros.rs:92-94`. -/
def cmul (l : Operand S I A) (r : Operand T I B) (im : CmulImpl A B I) (lhs : Wrapper S)
    (rhs : Wrapper T) : Res ArithErr (Wrapper I) :=
  mapOk (im.cmul (l.promote lhs.val) (r.promote rhs.val)) Wrapper.mk

/-- The provided `CheckedMul::saturating_mul`, `/repo/src/ops/mod.rs:229-244`, which
`impl_op!(S [cmul] T = I)` does not override.  `negS` and `negT` are the comparisons `self < ZERO`
and `rhs < ZERO`, `mn` and `mx` the bounds `Output::MIN` and `Output::MAX`, of the user's `PartialOrd`,
`Zero` and `Bounded` impls. -/
def saturatingMul (negS : Wrapper S → Bool) (negT : Wrapper T → Bool) (mn mx : Wrapper I)
    (l : Operand S I A) (r : Operand T I B) (im : CmulImpl A B I) (lhs : Wrapper S)
    (rhs : Wrapper T) : Res ε (Wrapper I) :=
  let isLhsNegative := negS lhs
  let isRhsNegative := negT rhs
  unwrapOr (cmul l r im lhs rhs) (if isLhsNegative == isRhsNegative then mx else mn)

/-- `impl_op!(S [rmul] T = I)`: `rmul`, `/repo/src/macros.rs:103-109`. -/
def rmul (cfg : Cfg) (l : Operand S I A) (r : Operand T I B) (im : RmulImpl A B I) (lhs : Wrapper S)
    (rhs : Wrapper T) (mode : RoundMode) : Res ArithErr (Wrapper I) :=
  mapOk (im.rmul cfg (l.promote lhs.val) (r.promote rhs.val) mode) Wrapper.mk

/-- The provided `RoundingMul::saturating_rmul`, `/repo/src/ops/mod.rs:328-343`, as above. -/
def saturatingRmul (cfg : Cfg) (negS : Wrapper S → Bool) (negT : Wrapper T → Bool)
    (mn mx : Wrapper I) (l : Operand S I A) (r : Operand T I B) (im : RmulImpl A B I)
    (lhs : Wrapper S) (rhs : Wrapper T) (mode : RoundMode) : Res ε (Wrapper I) :=
  let isLhsNegative := negS lhs
  let isRhsNegative := negT rhs
  unwrapOr (rmul cfg l r im lhs rhs mode) (if isLhsNegative == isRhsNegative then mx else mn)

/-- `impl_op!(S [rdiv] T = I)`: `rdiv`, `/repo/src/macros.rs:118-129`. -/
def rdiv (cfg : Cfg) (l : Operand S I A) (r : Operand T I B) (im : RdivImpl B I) (lhs : Wrapper S)
    (rhs : Wrapper T) (mode : RoundMode) : Res ArithErr (Wrapper I) := do
  let x := l.promote lhs.val
  let y := r.promote rhs.val
  let v ← l.tryInto cfg x
  mapOk (im.rdiv cfg v y mode) Wrapper.mk

end ImplOp

end Fixnum
