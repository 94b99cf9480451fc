import Verif.Serde
import Verif.Literal
import Verif.ImplOp

/-!
# User types around `FixedPoint`

The functions of `/repo/src/serde.rs:149-356` are generic in a type `F` with `Into<FixedPoint>` and
`From<FixedPoint>`; `Serde.lean` has them for `F = FixedPoint`.  Here they are for any `F`: the user's
`Into` and `From` impls are functions `into` and `frm` (they are taken to return), and `fp.clone()` is
`fp`.  Likewise the `.into()` of `fixnum!` (`/repo/src/macros.rs:227-231`) and the `$res::from` of
`impl_op!` (`/repo/src/macros.rs:139`).
-/

namespace Fixnum

open Res

variable {ε F : Type} {L : Layout} {P : Nat}

namespace Wrap

/-- `repr::serialize`, `/repo/src/serde.rs:154-161`. -/
def reprSerialize (into : F → FP L P) (fp : F) : Res ε SerToken :=
  .ok (.int L.bits (into fp).intoBits.toInt)

/-- `repr::deserialize`, `/repo/src/serde.rs:165-174`. -/
def reprDeserialize (frm : FP L P → F) (c : Content) : Res DeErr F :=
  mapOk (mapOk (deInt L.bits c) FP.fromBits) frm

/-- `repr_option::serialize`, `/repo/src/serde.rs:183-193`. -/
def reprOptionSerialize (into : F → FP L P) (fp : Option F) : Res ε SerToken :=
  match (fp.map into).map FP.intoBits with
  | some b => .ok (.some (.int L.bits b.toInt))
  | none => .ok .none

/-- `repr_option::deserialize`, `/repo/src/serde.rs:197-205`. -/
def reprOptionDeserialize (frm : FP L P → F) (c : Content) : Res DeErr (Option F) :=
  mapOk (deOption (deInt L.bits) c) fun inner => (inner.map FP.fromBits).map frm

/-- `str::serialize`, `/repo/src/serde.rs:213-222`. -/
def strSerialize (cfg : Cfg) (into : F → FP L P) (fp : F) : Res ε SerToken := do
  let buf ← FP.stringify cfg (into fp) []
  .ok (.str buf)

/-- `s.parse().map(F::from).map_err(…)`, `/repo/src/serde.rs:232-237,269-274`. -/
def strParse (cfg : Cfg) (frm : FP L P → F) (s : List Char) : Res DeErr F :=
  mapErr (mapOk (FP.fromStr cfg s) frm) fun _ =>
    .invalidValue (.str s) "string containing a fixed-point number"

/-- `str::deserialize`, `/repo/src/serde.rs:225-238`. -/
def strDeserialize (cfg : Cfg) (frm : FP L P → F) (c : Content) : Res DeErr F := do
  let s ← deBorrowedStr c
  strParse cfg frm s

/-- `str_option::serialize`, `/repo/src/serde.rs:246-259`. -/
def strOptionSerialize (cfg : Cfg) (into : F → FP L P) : Option F → Res ε SerToken
  | some fp => do
    let buf ← FP.stringify cfg (into fp) []
    .ok (.some (.str buf))
  | none => .ok .none

/-- `str_option::deserialize`, `/repo/src/serde.rs:262-277`. -/
def strOptionDeserialize (cfg : Cfg) (frm : FP L P → F) (c : Content) : Res DeErr (Option F) := do
  let s ← deOption deBorrowedStr c
  match s with
  | some s => mapOk (strParse cfg frm s) some
  | none => .ok none

/-- `float::serialize`, `/repo/src/serde.rs:286-295`. -/
def floatSerialize (cfg : Cfg) (into : F → FP L P) (fp : F) : Res ε SerToken := do
  let f ← FP.toF64 cfg (into fp)
  .ok (.f64 f)

/-- `FixedPoint::try_from(f).map(F::from).map_err(…)`, `/repo/src/serde.rs:307-313,349-354`. -/
def floatParse (cfg : Cfg) (frm : FP L P → F) (f : BitVec 64) : Res DeErr F :=
  mapErr (mapOk (FP.tryFromF64 cfg f) frm) fun _ =>
    .invalidValue (.float f) "float containing a fixed-point number"

/-- `float::deserialize`, `/repo/src/serde.rs:298-314`. -/
def floatDeserialize (cfg : Cfg) (frm : FP L P → F) (c : Content) : Res DeErr F := do
  let f ← deF64 c
  floatParse cfg frm f

/-- `float_option::serialize`, `/repo/src/serde.rs:323-335`. -/
def floatOptionSerialize (cfg : Cfg) (into : F → FP L P) : Option F → Res ε SerToken
  | some fp => do
    let f ← FP.toF64 cfg (into fp)
    .ok (.some (.f64 f))
  | none => .ok .none

/-- `float_option::deserialize`, `/repo/src/serde.rs:338-357`. -/
def floatOptionDeserialize (cfg : Cfg) (frm : FP L P → F) (c : Content) : Res DeErr (Option F) := do
  let f ← deOption deF64 c
  match f with
  | some f => mapOk (floatParse cfg frm f) some
  | none => .ok none

/-- `fixnum!(value, P)` where the context asks for `F`, `/repo/src/macros.rs:227-231`: the constant
followed by `.into()`. -/
def literal (cfg : Cfg) (frm : FP L P → F) (bytes : List Nat) : Res ε F :=
  mapOk (fixnumConst cfg L P bytes) frm

variable {S T I A B : OpTy}

/-- `saturating_add` of `impl_op!(S [cadd] T = F)`, `/repo/src/macros.rs:65-67,132-140`, with the
user's `F::from`. -/
def saturatingAdd (frm : I.den → F) (l : Operand S I A) (r : Operand T I B) (im : AddImpl A B I)
    (lhs : Wrapper S) (rhs : Wrapper T) : F :=
  frm (im.saturatingAdd (l.promote lhs.val) (r.promote rhs.val))

/-- `saturating_sub` of `impl_op!(S [csub] T = F)`, `/repo/src/macros.rs:81-83,132-140`, with the
user's `F::from`. -/
def saturatingSub (frm : I.den → F) (l : Operand S I A) (r : Operand T I B) (im : AddImpl A B I)
    (lhs : Wrapper S) (rhs : Wrapper T) : F :=
  frm (im.saturatingSub (l.promote lhs.val) (r.promote rhs.val))

end Wrap

end Fixnum
