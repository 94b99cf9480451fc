import Verif.Refine
import Verif.RefineText
import Verif.Props.Order
import Verif.Props.Text
import Verif.Props.Literal
import Verif.RefineFloat
import Verif.Props.ToFloat

/-! # Property C39: results do not depend on the build profile -/

namespace Fixnum

open Res Spec

variable {L : Layout} {P : Nat} {ε α : Type}

/-- Two builds with the same cargo features; they may differ in overflow checks and debug
assertions. -/
def SameFeatures (cfg cfg' : Cfg) : Prop := cfg.std = cfg'.std ∧ cfg.i128 = cfg'.i128

/-- The outcome of an operation, as a function of the build, is the same in any two builds with the
same features in which it does not panic; and the only thing overflow checks and debug assertions
can do is turn an outcome into a panic. -/
def ProfileIndependent (op : Cfg → Res ε α) : Prop :=
  (∀ cfg cfg', SameFeatures cfg cfg' → op cfg ≠ .panic → op cfg' ≠ .panic → op cfg = op cfg') ∧
  ∀ cfg cfg', SameFeatures cfg cfg' → cfg'.overflowChecks = false → cfg'.debugAssertions = false →
    op cfg = .panic ∨ op cfg = op cfg'

theorem profileIndependent_of {op : Cfg → Res ε α}
    (h : ∀ cfg, Refines (op cfg) (op (rel cfg))) : ProfileIndependent op := by
  have hr : ∀ {cfg cfg' : Cfg}, SameFeatures cfg cfg' → rel cfg = rel cfg' := by
    intro cfg cfg' hs
    unfold rel
    rw [hs.1, hs.2]
  constructor
  · intro cfg cfg' hs h1 h2
    rw [(h cfg).resolve_left h1, (h cfg').resolve_left h2, hr hs]
  · intro cfg cfg' hs ho hd
    have : cfg' = rel cfg' := by
      cases cfg'
      simp only [rel] at *
      rw [ho, hd]
    rw [this, ← hr hs]
    exact h cfg

/-- C39 for the operations that take the rounding mode. -/
theorem C39_rmul (a b : FP L P) (mode : RoundMode) :
    ProfileIndependent fun cfg => FP.rmul cfg a b mode :=
  profileIndependent_of fun cfg => FP.refines_rmul cfg a b mode

example := (C39_rmul (⟨15⟩ : FP .i64 1) ⟨-7⟩ .nearest).1 debugCfg releaseCfg ⟨rfl, rfl⟩
  (by decide +kernel) (by decide +kernel)

theorem C39_rdiv (a b : FP L P) (mode : RoundMode) :
    ProfileIndependent fun cfg => FP.rdiv cfg a b mode :=
  profileIndependent_of fun cfg => FP.refines_rdiv cfg a b mode

example := (C39_rdiv (⟨15⟩ : FP .i64 1) ⟨-7⟩ .nearest).1 debugCfg releaseCfg ⟨rfl, rfl⟩
  (by decide +kernel) (by decide +kernel)

theorem C39_rdiv_int (a : FP L P) (b : BitVec L.bits) (mode : RoundMode) :
    ProfileIndependent fun cfg => FP.rdivInt cfg a b mode :=
  profileIndependent_of fun cfg => FP.refines_rdivInt cfg a b mode

example := (C39_rdiv_int (⟨15⟩ : FP .i64 1) (-7) .nearest).1 debugCfg releaseCfg ⟨rfl, rfl⟩
  (by decide +kernel) (by decide +kernel)

theorem C39_int_rdiv_fixed (a : BitVec L.bits) (b : FP L P) (mode : RoundMode) :
    ProfileIndependent fun cfg => FP.intRdiv cfg a b mode :=
  profileIndependent_of fun cfg => FP.refines_intRdiv cfg a b mode

example := (C39_int_rdiv_fixed 7 (⟨15⟩ : FP .i64 1) .ceil).1 debugCfg releaseCfg ⟨rfl, rfl⟩
  (by decide +kernel) (by decide +kernel)

theorem C39_prim_rdiv {w : Nat} (a b : BitVec w) (mode : RoundMode) :
    ProfileIndependent fun cfg => SInt.rdiv cfg a b mode :=
  profileIndependent_of fun cfg => SInt.refines_rdiv cfg a b mode

example := (C39_prim_rdiv (7 : BitVec 32) (-3) .nearest).1 debugCfg releaseCfg ⟨rfl, rfl⟩
  (by decide +kernel) (by decide +kernel)

theorem C39_saturating_rmul (a b : FP L P) (mode : RoundMode) :
    ProfileIndependent fun cfg => (FP.saturatingRmul cfg a b mode : Res ε _) :=
  profileIndependent_of fun cfg => FP.refines_saturatingRmul cfg a b mode

example := (C39_saturating_rmul (ε := Unit) (⟨15⟩ : FP .i64 1) ⟨-7⟩ .nearest).1 debugCfg releaseCfg ⟨rfl, rfl⟩
  (by decide +kernel) (by decide +kernel)

theorem C39_recip (a : FP L P) (mode : RoundMode) :
    ProfileIndependent fun cfg => FP.recip cfg a mode :=
  profileIndependent_of fun cfg => FP.refines_recip cfg a mode

example := (C39_recip (⟨15⟩ : FP .i64 1) .nearest).1 debugCfg releaseCfg ⟨rfl, rfl⟩
  (by decide +kernel) (by decide +kernel)

theorem C39_half_sum (a b : FP L P) (mode : RoundMode) :
    ProfileIndependent fun cfg => (FP.halfSum cfg a b mode : Res ε _) :=
  profileIndependent_of fun cfg => FP.refines_halfSum cfg a b mode

example := (C39_half_sum (ε := Unit) (⟨15⟩ : FP .i64 1) ⟨-8⟩ .floor).1 debugCfg releaseCfg ⟨rfl, rfl⟩
  (by decide +kernel) (by decide +kernel)

theorem C39_integral (a : FP L P) (mode : RoundMode) :
    ProfileIndependent fun cfg => (FP.integral cfg a mode : Res ε _) :=
  profileIndependent_of fun cfg => FP.refines_integral cfg a mode

example := (C39_integral (ε := Unit) (⟨15⟩ : FP .i64 1) .nearest).1 debugCfg releaseCfg ⟨rfl, rfl⟩
  (by decide +kernel) (by decide +kernel)

theorem C39_rsqrt (a : FP L P) (mode : RoundMode) :
    ProfileIndependent fun cfg => FP.rsqrt cfg a mode :=
  profileIndependent_of fun cfg => FP.refines_rsqrt cfg a mode

example := (C39_rsqrt (⟨15⟩ : FP .i64 1) .nearest).1 debugCfg releaseCfg ⟨rfl, rfl⟩
  (by decide +kernel) (by decide +kernel)

/-- C39 for the remaining operations that take the build as a parameter. -/
theorem C39_floor (a : FP L P) : ProfileIndependent fun cfg => (FP.floor cfg a : Res ε _) :=
  profileIndependent_of fun cfg => FP.refines_floor cfg a

example := (C39_floor (ε := Unit) (⟨15⟩ : FP .i64 1)).1 debugCfg releaseCfg ⟨rfl, rfl⟩
  (by decide +kernel) (by decide +kernel)

theorem C39_ceil (a : FP L P) : ProfileIndependent fun cfg => (FP.ceil cfg a : Res ε _) :=
  profileIndependent_of fun cfg => FP.refines_ceil cfg a

example := (C39_ceil (ε := Unit) (⟨15⟩ : FP .i64 1)).1 debugCfg releaseCfg ⟨rfl, rfl⟩
  (by decide +kernel) (by decide +kernel)

theorem C39_round (a : FP L P) : ProfileIndependent fun cfg => (FP.round cfg a : Res ε _) :=
  profileIndependent_of fun cfg => FP.refines_round cfg a

example := (C39_round (ε := Unit) (⟨15⟩ : FP .i64 1)).1 debugCfg releaseCfg ⟨rfl, rfl⟩
  (by decide +kernel) (by decide +kernel)

theorem C39_from_decimal (m : BitVec L.bits) (e : Int) :
    ProfileIndependent fun cfg => (FP.fromDecimal cfg m e : Res ConvErr (FP L P)) :=
  profileIndependent_of fun cfg => FP.refines_fromDecimal cfg m e

example := (C39_from_decimal (L := .i64) (P := 9) 15 (-1)).1 debugCfg releaseCfg ⟨rfl, rfl⟩
  (by decide +kernel) (by decide +kernel)

theorem C39_try_from_int (n : Int) :
    ProfileIndependent fun cfg => (FP.tryFromInt cfg n : Res ConvErr (FP L P)) :=
  profileIndependent_of fun cfg => FP.refines_tryFromInt cfg n

example := (C39_try_from_int (L := .i64) (P := 9) (-15)).1 debugCfg releaseCfg ⟨rfl, rfl⟩
  (by decide +kernel) (by decide +kernel)

theorem C39_display (x : FP L P) :
    ProfileIndependent fun cfg => (FP.display cfg x : Res ε (List Char)) :=
  profileIndependent_of fun cfg => FP.refines_display cfg x

example := (C39_display (ε := Unit) (⟨15⟩ : FP .i64 1)).1 debugCfg releaseCfg ⟨rfl, rfl⟩
  (by decide +kernel) (by decide +kernel)

theorem C39_from_str (s : List Char) :
    ProfileIndependent fun cfg => (FP.fromStr cfg s : Res ConvErr (FP L P)) :=
  profileIndependent_of fun cfg => FP.refines_parseStr cfg false s

example := (C39_from_str (L := .i64) (P := 9) "-1.5".toList).1 debugCfg releaseCfg ⟨rfl, rfl⟩
  (by decide +kernel) (by decide +kernel)

theorem C39_from_str_exact (s : List Char) :
    ProfileIndependent fun cfg => (FP.fromStrExact cfg s : Res ConvErr (FP L P)) :=
  profileIndependent_of fun cfg => FP.refines_parseStr cfg true s

example := (C39_from_str_exact (L := .i64) (P := 9) "-1.5".toList).1 debugCfg releaseCfg ⟨rfl, rfl⟩
  (by decide +kernel) (by decide +kernel)

/-! Within the domains of C07, C10, C11, C18 and C22 no build panics and all builds agree, whatever
their features (both must support the type). -/

theorem C39_rmul_domain {cfg cfg' : Cfg} (hv : Valid cfg L P) (hv' : Valid cfg' L P) (a b : FP L P)
    (mode : RoundMode) (hs : mode = .nearest → RmulSafe L P (a.inner.toInt * b.inner.toInt)) :
    FP.rmul cfg a b mode = FP.rmul cfg' a b mode :=
  (C07_rmul_remainder_partial hv a b mode hs).unique (C07_rmul_remainder_partial hv' a b mode hs)

example := C39_rmul_domain (cfg := debugCfg) (cfg' := releaseCfg) (by decide) (by decide)
  (⟨15⟩ : FP .i64 1) ⟨-7⟩ .nearest (fun _ => by unfold RmulSafe; decide +kernel)

theorem C39_rdiv_domain {cfg cfg' : Cfg} (hv : Valid cfg L P) (hv' : Valid cfg' L P) (a b : FP L P)
    (mode : RoundMode)
    (hs : mode = .nearest → NearestSafe L (a.inner.toInt * 10 ^ P) b.inner.toInt) :
    FP.rdiv cfg a b mode = FP.rdiv cfg' a b mode := by
  by_cases hb : value b = 0
  · rw [(C10_rdiv_zero_iff hv a b mode).2 hb, (C10_rdiv_zero_iff hv' a b mode).2 hb]
  · by_cases hm : mode = .nearest
    · subst hm
      exact (C11_rdiv_nearest_partial hv a b hb (hs rfl)).unique
        (C11_rdiv_nearest_partial hv' a b hb (hs rfl))
    · exact (C10_rdiv_directed hv a b mode hm hb).unique (C10_rdiv_directed hv' a b mode hm hb)

example := C39_rdiv_domain (cfg := debugCfg) (cfg' := releaseCfg) (by decide) (by decide)
  (⟨15⟩ : FP .i64 1) ⟨-7⟩ .nearest (fun _ => by unfold NearestSafe; decide +kernel)

theorem C39_integral_domain {cfg cfg' : Cfg} (hv : Valid cfg L P) (hv' : Valid cfg' L P)
    (a : FP L P) (mode : RoundMode) (hm : value a ≠ minValue L P)
    (hn : mode = .nearest → 2 * |a.inner.toInt.tmod (10 ^ P)| ≤ rawMax L) :
    (FP.integral cfg a mode : Res ε _) = FP.integral cfg' a mode := by
  obtain ⟨i, h1, h2⟩ := C18_integral_partial (ε := ε) hv a mode hm hn
  obtain ⟨j, h3, h4⟩ := C18_integral_partial (ε := ε) hv' a mode hm hn
  rw [h1, h3]
  congr 1
  exact BitVec.eq_of_toInt_eq (by rw [h2, h4])

example := C39_integral_domain (ε := Unit) (cfg := debugCfg) (cfg' := releaseCfg) (by decide)
  (by decide) (⟨-27⟩ : FP .i64 1) .nearest (by decide +kernel) (fun _ => by decide +kernel)

theorem C39_half_sum_domain (cfg cfg' : Cfg) (a b : FP L P) (mode : RoundMode) :
    (FP.halfSum cfg a b mode : Res ε _) = FP.halfSum cfg' a b mode := by
  obtain ⟨x, h1, h2⟩ := halfSum_value (ε := ε) cfg a b mode
  obtain ⟨y, h3, h4⟩ := halfSum_value (ε := ε) cfg' a b mode
  rw [h1, h3, value_inj (h2.trans h4.symm)]

example := C39_half_sum_domain (ε := Unit) debugCfg releaseCfg (⟨15⟩ : FP .i64 1) ⟨-8⟩ .nearest

theorem C39_from_str_domain {cfg cfg' : Cfg} (hs : SameFeatures cfg cfg') (hv : Valid cfg L P)
    (hv' : Valid cfg' L P) (s : List Char) :
    (FP.fromStr cfg s : Res ConvErr (FP L P)) = FP.fromStr cfg' s := by
  apply (C39_from_str s).1 cfg cfg' hs
  · rcases C32_from_str_returns hv s with ⟨x, h⟩ | ⟨e, h⟩ <;> dsimp only <;> rw [h] <;> simp [Res.panic]
  · rcases C32_from_str_returns hv' s with ⟨x, h⟩ | ⟨e, h⟩ <;> dsimp only <;> rw [h] <;> simp [Res.panic]

example := C39_from_str_domain (cfg := debugCfg) (cfg' := releaseCfg) (L := .i64) (P := 9)
  ⟨rfl, rfl⟩ (by decide) (by decide) "-1.25".toList

theorem C39_from_str_exact_domain {cfg cfg' : Cfg} (hs : SameFeatures cfg cfg')
    (hv : Valid cfg L P) (hv' : Valid cfg' L P) (s : List Char) :
    (FP.fromStrExact cfg s : Res ConvErr (FP L P)) = FP.fromStrExact cfg' s := by
  apply (C39_from_str_exact s).1 cfg cfg' hs
  · rcases C31_from_str_exact_returns hv s with ⟨x, h⟩ | ⟨e, h⟩ <;> dsimp only <;> rw [h] <;> simp [Res.panic]
  · rcases C31_from_str_exact_returns hv' s with ⟨x, h⟩ | ⟨e, h⟩ <;> dsimp only <;> rw [h] <;> simp [Res.panic]

example := C39_from_str_exact_domain (cfg := debugCfg) (cfg' := releaseCfg) (L := .i64) (P := 9)
  ⟨rfl, rfl⟩ (by decide) (by decide) "-1.25".toList

theorem C39_display_domain {cfg cfg' : Cfg} (hv : Valid cfg L P) (hv' : Valid cfg' L P)
    (hP : 1 ≤ P) (hL : ¬ (L = .i128 ∧ P = 38)) (x : FP L P) :
    (FP.display cfg x : Res ε (List Char)) = FP.display cfg' x := by
  obtain ⟨l, h1, h2, h3, -⟩ := C28_display_types (ε := ε) hv hP hL x
  obtain ⟨m, h4, h5, h6, -⟩ := C28_display_types (ε := ε) hv' hP hL x
  rw [h1, h4, C28_canonical_unique h2 h5 (h3.trans h6.symm)]

example := C39_display_domain (ε := Unit) (cfg := debugCfg) (cfg' := releaseCfg) (by decide)
  (by decide) (by decide) (by decide) (⟨-1500⟩ : FP .i64 3)

/-- C39 for the constant evaluation behind `fixnum_const!`. -/
theorem C39_fixnum_const (bs : List Nat) :
    ProfileIndependent fun cfg => (fixnumConst cfg L P bs : Res ε _) :=
  profileIndependent_of fun cfg => refines_fixnumConst cfg bs

example := (C39_fixnum_const (ε := Unit) (L := .i64) (P := 9) [45, 49, 46, 53]).1 debugCfg releaseCfg ⟨rfl, rfl⟩
  (by decide +kernel) (by decide +kernel)

/-- C39 for the conversions from and to `f64`. -/
theorem C39_try_from_f64 (f : BitVec 64) :
    ProfileIndependent fun cfg => (FP.tryFromF64 cfg f : Res ConvErr (FP L P)) :=
  profileIndependent_of fun cfg => FP.refines_tryFromF64 cfg f

example := (C39_try_from_f64 (L := .i64) (P := 9) 0x3FF8000000000000#64).1 debugCfg releaseCfg ⟨rfl, rfl⟩
  (by decide +kernel) (by decide +kernel)

theorem C39_to_f64 (a : FP L P) : ProfileIndependent fun cfg => (FP.toF64 cfg a : Res ε _) :=
  profileIndependent_of fun cfg => FP.refines_toF64 cfg a

example := (C39_to_f64 (ε := Unit) (⟨15⟩ : FP .i64 1)).1 debugCfg releaseCfg ⟨rfl, rfl⟩
  (by decide +kernel) (by decide +kernel)

theorem C39_try_from_f64_domain {cfg cfg' : Cfg} (hs : SameFeatures cfg cfg') (hP : P ≤ 10 ^ 9)
    (f : BitVec 64) : (FP.tryFromF64 cfg f : Res ConvErr (FP L P)) = FP.tryFromF64 cfg' f := by
  apply (C39_try_from_f64 f).1 cfg cfg' hs
  · intro h
    have := C42_returns cfg L hP f
    dsimp only at h
    rw [h] at this
    exact this
  · intro h
    have := C42_returns cfg' L hP f
    dsimp only at h
    rw [h] at this
    exact this

example := C39_try_from_f64_domain (cfg := debugCfg) (cfg' := releaseCfg) (L := .i64) (P := 9)
  ⟨rfl, rfl⟩ (by norm_num) 0x402AD70A3D70A3D7

theorem C39_to_f64_domain {cfg cfg' : Cfg} (hv : Valid cfg L P) (hv' : Valid cfg' L P)
    (a : FP L P) : (FP.toF64 cfg a : Res ε _) = FP.toF64 cfg' a := by
  rw [toF64_eq hv, toF64_eq hv']

example := C39_to_f64_domain (ε := Unit) (cfg := debugCfg) (cfg' := releaseCfg) (by decide)
  (by decide) (⟨-1500⟩ : FP .i64 3)

/-- The profile does matter outside the domain: `rdiv` panics in debug, returns a (wrong) value in
release. -/
theorem C39_outside_domain :
    FP.rdiv debugCfg (⟨5000000000⟩ : FP .i64 9) ⟨9000000000000000000⟩ .nearest = .panic ∧
    FP.rdiv releaseCfg (⟨5000000000⟩ : FP .i64 9) ⟨9000000000000000000⟩ .nearest = .ok ⟨0⟩ := by
  decide +kernel

example : SameFeatures debugCfg releaseCfg := ⟨rfl, rfl⟩
example : FP.rdiv debugCfg (⟨7⟩ : FP .i64 9) ⟨2000000000⟩ .nearest = .ok ⟨4⟩ ∧
    FP.rdiv releaseCfg (⟨7⟩ : FP .i64 9) ⟨2000000000⟩ .nearest = .ok ⟨4⟩ := by decide +kernel

end Fixnum
