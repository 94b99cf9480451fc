import Verif.Wrap
import Verif.Props.SerdeModules
import Verif.Props.ImplOp
import Verif.Props.Literal

/-! # Property C110: user types around `FixedPoint` -/

namespace Fixnum

open Res Spec

variable {ε F : Type} {L : Layout} {P : Nat}

namespace Spec

/-- `r'` is `r` with `f` applied to the value, if there is one; errors and panics are the same. -/
def Through {α β : Type} (f : α → β) (r : Res ε α) (r' : Res ε β) : Prop :=
  (∀ a, r = .ok a → r' = .ok (f a)) ∧ (∀ e, r = .err e → r' = .err e) ∧
    ∀ k, r = .fault k → r' = .fault k

end Spec

/-- A user type: a debt of `n` is the number `-n`, kept as its bitwise complement so that every number
has one. -/
structure Debt where
  bits : BitVec 64
deriving DecidableEq

/-- `Into<FixedPoint<i64, U9>>` of the user type. -/
def Debt.into (d : Debt) : FP .i64 9 := ⟨~~~d.bits⟩

/-- `From<FixedPoint<i64, U9>>` of the user type. -/
def Debt.frm (x : FP .i64 9) : Debt := ⟨~~~x.inner⟩

theorem debt_inverse (d : Debt) : Debt.frm d.into = d := by
  cases d; exact congrArg Debt.mk BitVec.not_not

theorem through_mapOk {α β : Type} (f : α → β) (r : Res ε α) : Through f r (mapOk r f) := by
  cases r <;> simp [Through]

/-- C110: a user type is written as the number inside it, by every module. -/
theorem C110_serialize {cfg : Cfg} (into : F → FP L P) (fp : F) (o : Option F) :
    (Wrap.reprSerialize into fp : Res ε _) = FP.reprSerialize (into fp) ∧
    (Wrap.strSerialize cfg into fp : Res ε _) = FP.strSerialize cfg (into fp) ∧
    (Wrap.floatSerialize cfg into fp : Res ε _) = FP.floatSerialize cfg (into fp) ∧
    (Wrap.reprOptionSerialize into o : Res ε _) = FP.reprOptionSerialize (o.map into) ∧
    (Wrap.strOptionSerialize cfg into o : Res ε _) = FP.strOptionSerialize cfg (o.map into) ∧
    (Wrap.floatOptionSerialize cfg into o : Res ε _) = FP.floatOptionSerialize cfg (o.map into) := by
  refine ⟨rfl, rfl, rfl, ?_, ?_, ?_⟩ <;> cases o <;> rfl

example := C110_serialize (ε := Unit) (cfg := debugCfg) (id : FP .i64 9 → _) ⟨-15⟩ (some ⟨7⟩)

/-- C110: what is read as a user type is `From` of what is read as a number, with the same errors. -/
theorem C110_deserialize {cfg : Cfg} (frm : FP L P → F) (c : Content) :
    Through frm (FP.reprDeserialize c) (Wrap.reprDeserialize frm c) ∧
    Through frm (FP.strDeserialize cfg c) (Wrap.strDeserialize cfg frm c) ∧
    Through frm (FP.floatDeserialize cfg c) (Wrap.floatDeserialize cfg frm c) ∧
    Through (Option.map frm) (FP.reprOptionDeserialize c) (Wrap.reprOptionDeserialize frm c) ∧
    Through (Option.map frm) (FP.strOptionDeserialize cfg c) (Wrap.strOptionDeserialize cfg frm c) ∧
    Through (Option.map frm) (FP.floatOptionDeserialize cfg c)
      (Wrap.floatOptionDeserialize cfg frm c) := by
  refine ⟨through_mapOk _ _, ?_, ?_, ?_, ?_, ?_⟩
  · unfold FP.strDeserialize Wrap.strDeserialize FP.strParse Wrap.strParse
    cases deBorrowedStr c with
    | ok s => simp only [ok_bind]; cases (FP.fromStr cfg s : Res _ (FP L P)) <;> simp [Through]
    | err e => simp [Through]
    | fault k => simp [Through]
  · unfold FP.floatDeserialize Wrap.floatDeserialize FP.floatParse Wrap.floatParse
    cases deF64 c with
    | ok s => simp only [ok_bind]; cases (FP.tryFromF64 cfg s : Res _ (FP L P)) <;> simp [Through]
    | err e => simp [Through]
    | fault k => simp [Through]
  · unfold FP.reprOptionDeserialize Wrap.reprOptionDeserialize
    cases deOption (deInt L.bits) c <;> simp [Through]
  · unfold FP.strOptionDeserialize Wrap.strOptionDeserialize FP.strParse Wrap.strParse
    cases deOption deBorrowedStr c with
    | ok s =>
      simp only [ok_bind]
      cases s with
      | none => simp [Through]
      | some s => dsimp only; cases (FP.fromStr cfg s : Res _ (FP L P)) <;> simp [Through]
    | err e => simp [Through]
    | fault k => simp [Through]
  · unfold FP.floatOptionDeserialize Wrap.floatOptionDeserialize FP.floatParse Wrap.floatParse
    cases deOption deF64 c with
    | ok s =>
      simp only [ok_bind]
      cases s with
      | none => simp [Through]
      | some s => dsimp only; cases (FP.tryFromF64 cfg s : Res _ (FP L P)) <;> simp [Through]
    | err e => simp [Through]
    | fault k => simp [Through]

example := C110_deserialize (cfg := debugCfg) (some : FP .i64 9 → _) (.str true "1.5".toList)

/-- C110: if `From` undoes `Into`, a user type comes back as it was through the `repr` modules. -/
theorem C110_repr_round_trip (into : F → FP L P) (frm : FP L P → F)
    (h : ∀ v, frm (into v) = v) (fp : F) (o : Option F) :
    (∃ t, (Wrap.reprSerialize into fp : Res ε _) = .ok t ∧
      ∀ b c, Delivers b t c → Wrap.reprDeserialize frm c = .ok fp) ∧
    ∃ t, (Wrap.reprOptionSerialize into o : Res ε _) = .ok t ∧
      ∀ b c, Delivers b t c → Wrap.reprOptionDeserialize frm c = .ok o := by
  refine ⟨?_, ?_⟩
  · obtain ⟨n, -, h1, -, h2⟩ := C49_binary (ε := ε) (cfg := debugCfg) (cfg' := debugCfg) (into fp)
    refine ⟨_, h1, fun b c hc => ?_⟩
    rw [(C110_deserialize (cfg := debugCfg) frm c).1.1 _ (h2 b false c hc).2, h]
  · obtain ⟨t, h1, h2⟩ := C49_repr_option (ε := ε) (o.map into)
    refine ⟨t, ?_, fun b c hc => ?_⟩
    · rw [(C110_serialize (cfg := debugCfg) into fp o).2.2.2.1, h1]
    · rw [(C110_deserialize (cfg := debugCfg) frm c).2.2.2.1.1 _ (h2 b c hc)]
      cases o <;> simp [h]

example := C110_repr_round_trip (ε := Unit) Debt.into Debt.frm debt_inverse ⟨13420000000⟩
  (some ⟨-13420000001⟩)

/-- C110: likewise through the `str` modules, where the number itself does (C49). -/
theorem C110_str_round_trip {cfg : Cfg} (hv : Valid cfg L P) (hP : 1 ≤ P)
    (hL : ¬ (L = .i128 ∧ P = 38)) (into : F → FP L P) (frm : FP L P → F)
    (h : ∀ v, frm (into v) = v) (fp : F) (o : Option F) :
    (∃ t, (Wrap.strSerialize cfg into fp : Res ε _) = .ok t ∧
      ∀ c, Delivers true t c → Wrap.strDeserialize cfg frm c = .ok fp) ∧
    ∃ t, (Wrap.strOptionSerialize cfg into o : Res ε _) = .ok t ∧
      ∀ c, Delivers true t c → Wrap.strOptionDeserialize cfg frm c = .ok o := by
  refine ⟨?_, ?_⟩
  · obtain ⟨t, h1, h2⟩ := C49_str_partial (ε := ε) hv hP hL (into fp)
    refine ⟨t, h1, fun c hc => ?_⟩
    rw [(C110_deserialize (cfg := cfg) frm c).2.1.1 _ (h2 c hc), h]
  · obtain ⟨t, h1, h2⟩ := C49_str_option_partial (ε := ε) hv hP hL (o.map into)
    refine ⟨t, ?_, fun c hc => ?_⟩
    · rw [(C110_serialize (cfg := cfg) into fp o).2.2.2.2.1, h1]
    · rw [(C110_deserialize (cfg := cfg) frm c).2.2.2.2.1.1 _ (h2 c hc)]
      cases o <;> simp [h]

example := C110_str_round_trip (ε := Unit) (cfg := debugCfg) (by decide) (by decide) (by decide)
  Debt.into Debt.frm debt_inverse ⟨13420000000⟩ (some ⟨-13420000001⟩)

/-- C110: likewise through the `float` modules, where the number itself does (C61). -/
theorem C110_float_round_trip {cfg cfg' : Cfg} (hv : Valid cfg L P) (into : F → FP L P)
    (frm : FP L P → F) (h : ∀ v, frm (into v) = v) (fp : F)
    (hs : InRoundTripRange P (value (into fp) * 10 ^ P)) (hm : value (into fp) ≠ minValue L P) :
    (∃ t, (Wrap.floatSerialize cfg into fp : Res ε _) = .ok t ∧
      ∀ b c, Delivers b t c → Wrap.floatDeserialize cfg' frm c = .ok fp) ∧
    ∃ t, (Wrap.floatOptionSerialize cfg into (some fp) : Res ε _) = .ok t ∧
      ∀ b c, Delivers b t c → Wrap.floatOptionDeserialize cfg' frm c = .ok (some fp) := by
  refine ⟨?_, ?_⟩
  · obtain ⟨f, h1, -, h2⟩ := C61_float (ε := ε) (cfg' := cfg') hv (into fp) hs hm
    refine ⟨_, h1, fun b c hc => ?_⟩
    rw [(C110_deserialize (cfg := cfg') frm c).2.2.1.1 _ (h2 b c hc), h]
  · obtain ⟨t, h1, h2⟩ := C61_float_option (ε := ε) (cfg' := cfg') hv (some (into fp))
      (by rintro x ⟨⟩; exact ⟨hs, hm⟩)
    refine ⟨t, h1, fun b c hc => ?_⟩
    rw [(C110_deserialize (cfg := cfg') frm c).2.2.2.2.2.1 _ (h2 b c hc)]
    simp [h]

example := C110_float_round_trip (ε := Unit) (cfg := debugCfg) (cfg' := releaseCfg) (by decide)
  Debt.into Debt.frm debt_inverse ⟨13420000000⟩ (by unfold InRoundTripRange; decide +kernel)
  (by decide +kernel)

/-- C110: a literal of a user type is `From` of the number literal. -/
theorem C110_literal {cfg : Cfg} (frm : FP L P → F) (bytes : List Nat) :
    Through frm (fixnumConst cfg L P bytes : Res ε _) (Wrap.literal cfg frm bytes) :=
  through_mapOk _ _

example := C110_literal (ε := Unit) (cfg := debugCfg) (some : FP .i64 9 → _) [45, 49, 46, 53]

/-- C110: the saturating operations of `impl_op!` hand the clamped number to the user's `From`. -/
theorem C110_saturating {S T I A B : OpTy} (frm : I.den → F) (l : Operand S I A) (r : Operand T I B)
    (im : AddImpl A B I) (x : Wrapper S) (y : Wrapper T) :
    (∃ n, Wrap.saturatingAdd frm l r im x y = frm n ∧
      num ⟨n⟩ = max (least I) (min (greatest I) (num x + num y))) ∧
    ∃ n, Wrap.saturatingSub frm l r im x y = frm n ∧
      num ⟨n⟩ = max (least I) (min (greatest I) (num x - num y)) :=
  ⟨⟨_, rfl, (C51_saturating l r im x y).1⟩, ⟨_, rfl, (C51_saturating l r im x y).2⟩⟩

-- a debt of 13.420000001 through the three modules, as a literal, and saturating
example :
    (Wrap.strSerialize debugCfg Debt.into ⟨13420000000⟩ : Res Unit _) =
      .ok (.str "-13.420000001".toList) ∧
    (Wrap.strDeserialize debugCfg Debt.frm (.str true "-13.420000001".toList)) =
      .ok ⟨13420000000⟩ ∧
    (Wrap.strDeserialize debugCfg Debt.frm (.str true "owed".toList)) =
      .err (.invalidValue (.str "owed".toList) "string containing a fixed-point number") ∧
    (Wrap.reprSerialize Debt.into ⟨13420000000⟩ : Res Unit _) = .ok (.int 64 (-13420000001)) ∧
    Wrap.reprOptionDeserialize Debt.frm (.int 64 (-13420000001)) = .ok (some ⟨13420000000⟩) ∧
    (Wrap.literal debugCfg Debt.frm ("-13.420000001".toList.map Char.toNat) : Res Unit _) =
      .ok ⟨13420000000⟩ ∧
    Wrap.saturatingSub (I := .fp .i64 9) Debt.frm (.self .i64 9) (.self .i64 9) (.fp .i64 9)
      ⟨FP.min⟩ ⟨⟨1⟩⟩ = ⟨BitVec.ofInt 64 (2 ^ 63 - 1)⟩ := by
  decide +kernel

end Fixnum
