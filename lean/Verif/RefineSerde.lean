import Verif.RefineText
import Verif.RefineFloat
import Verif.Serde
import Verif.ImplOp

/-! # Build profiles: serde and the operations generated by `impl_op!` -/

namespace Fixnum

open Res

variable {L : Layout} {P : Nat} {ε : Type}

theorem FP.refines_stringify (cfg : Cfg) (x : FP L P) (b : StrBuf) :
    Refines (FP.stringify cfg x b : Res ε StrBuf) (FP.stringify (rel cfg) x b) := by
  unfold FP.stringify; dsimp only; refn
macro_rules | `(tactic| refn1) => `(tactic| with_reducible exact FP.refines_stringify _ _ _)
macro_rules | `(tactic| refn1) => `(tactic| with_reducible exact FP.refines_tryFromInt _ _)
macro_rules | `(tactic| refn1) => `(tactic| with_reducible exact FP.refines_tryFromF64 _ _)
macro_rules | `(tactic| refn1) => `(tactic| with_reducible exact FP.refines_toF64 _ _)

theorem FP.refines_fromStr (cfg : Cfg) (s : List Char) :
    Refines (FP.fromStr cfg s : Res ConvErr (FP L P)) (FP.fromStr (rel cfg) s) :=
  FP.refines_parseStr cfg false s
macro_rules | `(tactic| refn1) => `(tactic| with_reducible exact FP.refines_fromStr _ _)

theorem refines_visitMap (cfg : Cfg) (e : List (Content × Content)) :
    Refines (visitMap cfg e : Res DeErr (FP L P)) (visitMap (rel cfg) e) := by
  unfold visitMap
  dsimp only
  rcases e with _ | ⟨⟨k, v⟩, _⟩
  · exact Refines.refl _
  · dsimp only
    cases deString k with
    | err e => exact Refines.refl _
    | fault f => exact Refines.refl _
    | ok key =>
      dsimp only
      split
      · cases deString v with
        | err e => exact Refines.refl _
        | fault f => exact Refines.refl _
        | ok value => dsimp only; refn
      · exact Refines.refl _

theorem refines_visitAny (cfg : Cfg) (q : Bool) (c : Content) :
    Refines (visitAny cfg q c : Res DeErr (FP L P)) (visitAny (rel cfg) q c) := by
  cases c <;> unfold visitAny <;>
    (try unfold visitStr) <;> (try unfold visitF64) <;> (try unfold visitI64) <;>
    (try unfold visitU64) <;> (try unfold visitI128) <;> (try unfold visitU128) <;>
    (dsimp only; refn)
  exact refines_visitMap _ _

namespace FP

theorem refines_deserialize (cfg : Cfg) (q h : Bool) (c : Content) :
    Refines (deserialize cfg q h c : Res DeErr (FP L P)) (deserialize (rel cfg) q h c) := by
  unfold deserialize
  refn
  exact refines_visitAny _ _ _

theorem refines_serialize (cfg : Cfg) (h : Bool) (x : FP L P) :
    Refines (serialize cfg h x : Res ε SerToken) (serialize (rel cfg) h x) := by
  unfold serialize strSerialize
  refn

theorem refines_strSerialize (cfg : Cfg) (x : FP L P) :
    Refines (strSerialize cfg x : Res ε SerToken) (strSerialize (rel cfg) x) := by
  unfold strSerialize; refn

theorem refines_strOptionSerialize (cfg : Cfg) (x : Option (FP L P)) :
    Refines (strOptionSerialize cfg x : Res ε SerToken) (strOptionSerialize (rel cfg) x) := by
  cases x <;> unfold strOptionSerialize <;> refn

theorem refines_strParse (cfg : Cfg) (s : List Char) :
    Refines (strParse cfg s : Res DeErr (FP L P)) (strParse (rel cfg) s) := by
  unfold strParse; refn
macro_rules | `(tactic| refn1) => `(tactic| with_reducible exact FP.refines_strParse _ _)

theorem refines_strDeserialize (cfg : Cfg) (c : Content) :
    Refines (strDeserialize cfg c : Res DeErr (FP L P)) (strDeserialize (rel cfg) c) := by
  unfold strDeserialize; refn

theorem refines_strOptionDeserialize (cfg : Cfg) (c : Content) :
    Refines (strOptionDeserialize cfg c : Res DeErr (Option (FP L P)))
      (strOptionDeserialize (rel cfg) c) := by
  unfold strOptionDeserialize
  refine Refines.bind (Refines.refl _) fun s => ?_
  cases s <;> (dsimp only; refn)

theorem refines_floatSerialize (cfg : Cfg) (x : FP L P) :
    Refines (floatSerialize cfg x : Res ε SerToken) (floatSerialize (rel cfg) x) := by
  unfold floatSerialize; refn

theorem refines_floatOptionSerialize (cfg : Cfg) (x : Option (FP L P)) :
    Refines (floatOptionSerialize cfg x : Res ε SerToken) (floatOptionSerialize (rel cfg) x) := by
  cases x <;> unfold floatOptionSerialize <;> refn

theorem refines_floatParse (cfg : Cfg) (f : BitVec 64) :
    Refines (floatParse cfg f : Res DeErr (FP L P)) (floatParse (rel cfg) f) := by
  unfold floatParse; refn
macro_rules | `(tactic| refn1) => `(tactic| with_reducible exact FP.refines_floatParse _ _)

theorem refines_floatDeserialize (cfg : Cfg) (c : Content) :
    Refines (floatDeserialize cfg c : Res DeErr (FP L P)) (floatDeserialize (rel cfg) c) := by
  unfold floatDeserialize; refn

theorem refines_floatOptionDeserialize (cfg : Cfg) (c : Content) :
    Refines (floatOptionDeserialize cfg c : Res DeErr (Option (FP L P)))
      (floatOptionDeserialize (rel cfg) c) := by
  unfold floatOptionDeserialize
  refine Refines.bind (Refines.refl _) fun s => ?_
  cases s <;> (dsimp only; refn)

end FP

namespace ImplOp

variable {S T I A B : OpTy}

theorem refines_rmul (cfg : Cfg) (l : Operand S I A) (r : Operand T I B) (im : RmulImpl A B I)
    (x : Wrapper S) (y : Wrapper T) (mode : RoundMode) :
    Refines (rmul cfg l r im x y mode) (rmul (rel cfg) l r im x y mode) := by
  unfold rmul
  refine Refines.mapOk _ ?_
  cases im
  exact FP.refines_rmul cfg _ _ mode

theorem refines_saturatingRmul (cfg : Cfg) (nS : Wrapper S → Bool) (nT : Wrapper T → Bool)
    (mn mx : Wrapper I) (l : Operand S I A) (r : Operand T I B) (im : RmulImpl A B I)
    (x : Wrapper S) (y : Wrapper T) (mode : RoundMode) :
    Refines (saturatingRmul cfg nS nT mn mx l r im x y mode : Res ε _)
      (saturatingRmul (rel cfg) nS nT mn mx l r im x y mode) := by
  unfold saturatingRmul
  exact Refines.unwrapOr _ (refines_rmul cfg l r im x y mode)

theorem refines_rdiv (cfg : Cfg) (l : Operand S I A) (r : Operand T I B) (im : RdivImpl B I)
    (x : Wrapper S) (y : Wrapper T) (mode : RoundMode) :
    Refines (rdiv cfg l r im x y mode) (rdiv (rel cfg) l r im x y mode) := by
  unfold rdiv
  refine Refines.bind ?_ fun v => Refines.mapOk _ ?_
  · cases l
    · exact Refines.refl _
    · exact Refines.refl _
    · exact Refines.mapErr _ (FP.refines_tryFromInt cfg _)
  · cases im
    · exact FP.refines_rdiv cfg _ _ mode
    · exact FP.refines_rdivInt cfg _ _ mode
    · exact SInt.refines_rdiv cfg _ _ mode

end ImplOp

end Fixnum
