import Verif.RefineSerde
import Verif.Props.Profile

/-! # Property C39 for serde and for the operations generated by `impl_op!` -/

namespace Fixnum

open Res Spec

variable {L : Layout} {P : Nat} {ε : Type}

/-- C39 for `Serialize` and `Deserialize`. -/
theorem C39_serialize (human : Bool) (x : FP L P) :
    ProfileIndependent fun cfg => (FP.serialize cfg human x : Res ε SerToken) :=
  profileIndependent_of fun cfg => FP.refines_serialize cfg human x

example := (C39_serialize (ε := Unit) true (⟨-1500000000⟩ : FP .i64 9)).1 debugCfg releaseCfg ⟨rfl, rfl⟩
  (by decide +kernel) (by decide +kernel)

theorem C39_deserialize (quickXml human : Bool) (c : Content) :
    ProfileIndependent fun cfg => (FP.deserialize cfg quickXml human c : Res DeErr (FP L P)) :=
  profileIndependent_of fun cfg => FP.refines_deserialize cfg quickXml human c

example := (C39_deserialize (L := .i64) (P := 9) false true (.str true "-1.5".toList)).1 debugCfg
  releaseCfg ⟨rfl, rfl⟩ (by decide +kernel) (by decide +kernel)

/-- C39 for the modules `str`, `str_option`, `float`, `float_option` of serde. -/
theorem C39_serde_str (x : Option (FP L P)) (c : Content) :
    (∀ y, ProfileIndependent fun cfg => (FP.strSerialize cfg (y : FP L P) : Res ε SerToken)) ∧
    (ProfileIndependent fun cfg => (FP.strOptionSerialize cfg x : Res ε SerToken)) ∧
    (ProfileIndependent fun cfg => (FP.strDeserialize cfg c : Res DeErr (FP L P))) ∧
    ProfileIndependent fun cfg => (FP.strOptionDeserialize cfg c : Res DeErr (Option (FP L P))) :=
  ⟨fun y => profileIndependent_of fun cfg => FP.refines_strSerialize cfg y,
    profileIndependent_of fun cfg => FP.refines_strOptionSerialize cfg x,
    profileIndependent_of fun cfg => FP.refines_strDeserialize cfg c,
    profileIndependent_of fun cfg => FP.refines_strOptionDeserialize cfg c⟩

example := (C39_serde_str (ε := Unit) (some (⟨-15⟩ : FP .i64 1)) (.str true "1.5".toList)).2.1.1 debugCfg
  releaseCfg ⟨rfl, rfl⟩ (by decide +kernel) (by decide +kernel)

theorem C39_serde_float (x : Option (FP L P)) (c : Content) :
    (∀ y, ProfileIndependent fun cfg => (FP.floatSerialize cfg (y : FP L P) : Res ε SerToken)) ∧
    (ProfileIndependent fun cfg => (FP.floatOptionSerialize cfg x : Res ε SerToken)) ∧
    (ProfileIndependent fun cfg => (FP.floatDeserialize cfg c : Res DeErr (FP L P))) ∧
    ProfileIndependent fun cfg => (FP.floatOptionDeserialize cfg c : Res DeErr (Option (FP L P))) :=
  ⟨fun y => profileIndependent_of fun cfg => FP.refines_floatSerialize cfg y,
    profileIndependent_of fun cfg => FP.refines_floatOptionSerialize cfg x,
    profileIndependent_of fun cfg => FP.refines_floatDeserialize cfg c,
    profileIndependent_of fun cfg => FP.refines_floatOptionDeserialize cfg c⟩

example := (C39_serde_float (ε := Unit) (some (⟨-15⟩ : FP .i64 1)) (.int 64 7)).2.2.1.1 debugCfg
  releaseCfg ⟨rfl, rfl⟩ (by decide +kernel) (by decide +kernel)

variable {S T I A B : OpTy}

/-- C39 for the operations on user types; the others do not take the build as a parameter. -/
theorem C39_impl_op_rmul (l : Operand S I A) (r : Operand T I B) (im : RmulImpl A B I)
    (x : Wrapper S) (y : Wrapper T) (mode : RoundMode) :
    ProfileIndependent fun cfg => ImplOp.rmul cfg l r im x y mode :=
  profileIndependent_of fun cfg => ImplOp.refines_rmul cfg l r im x y mode

example := C39_impl_op_rmul (.self .i64 9) (.self .i64 9) (.fp .i64 9) ⟨⟨1500000001⟩⟩ ⟨⟨-3⟩⟩ .nearest

theorem C39_impl_op_saturating_rmul (nS : Wrapper S → Bool) (nT : Wrapper T → Bool)
    (mn mx : Wrapper I) (l : Operand S I A) (r : Operand T I B) (im : RmulImpl A B I)
    (x : Wrapper S) (y : Wrapper T) (mode : RoundMode) :
    ProfileIndependent fun cfg =>
      (ImplOp.saturatingRmul cfg nS nT mn mx l r im x y mode : Res ε _) :=
  profileIndependent_of fun cfg => ImplOp.refines_saturatingRmul cfg nS nT mn mx l r im x y mode

example := C39_impl_op_saturating_rmul (ε := Unit) (S := .fp .i64 9) (T := .fp .i64 9)
  (fun x => decide ((show FP .i64 9 from x.val).inner.toInt < 0))
  (fun y => decide ((show FP .i64 9 from y.val).inner.toInt < 0)) ⟨FP.min⟩ ⟨FP.max⟩ (.self .i64 9)
  (.self .i64 9) (.fp .i64 9) ⟨⟨1500000001⟩⟩ ⟨⟨-3⟩⟩ .nearest

theorem C39_impl_op_rdiv (l : Operand S I A) (r : Operand T I B) (im : RdivImpl B I)
    (x : Wrapper S) (y : Wrapper T) (mode : RoundMode) :
    ProfileIndependent fun cfg => ImplOp.rdiv cfg l r im x y mode :=
  profileIndependent_of fun cfg => ImplOp.refines_rdiv cfg l r im x y mode

-- two builds that both return
example : SameFeatures ⟨true, true, true, true⟩ ⟨false, false, true, true⟩ ∧
    (FP.serialize ⟨true, true, true, true⟩ true (⟨-1500000000⟩ : FP .i64 9) : Res Unit SerToken) =
      FP.serialize ⟨false, false, true, true⟩ true (⟨-1500000000⟩ : FP .i64 9) := by
  refine ⟨⟨rfl, rfl⟩, ?_⟩
  decide +kernel
example : (FP.deserialize ⟨true, true, true, true⟩ false true (.f64 0x3FF8000000000000) :
      Res DeErr (FP .i64 9)) = .ok ⟨1500000000⟩ ∧
    (FP.deserialize ⟨false, false, true, true⟩ false true (.f64 0x3FF8000000000000) :
      Res DeErr (FP .i64 9)) = .ok ⟨1500000000⟩ := by
  decide +kernel

end Fixnum
