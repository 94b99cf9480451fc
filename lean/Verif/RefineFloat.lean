import Verif.Refine
import Verif.Float
import Verif.FloatOps

/-! # Build profiles: the conversions from and to `f64` -/

namespace Fixnum

open Res F64

variable {L : Layout} {P : Nat} {ε : Type}

theorem refines_i32 (cfg : Cfg) (z : Int) : Refines (i32 cfg z : Res ε _) (i32 (rel cfg) z) := by
  unfold i32
  refine Refines.ite (fun _ => Refines.refl _) (fun _ => ?_)
  cases h : cfg.overflowChecks
  · exact Refines.refl _
  · exact Refines.panic _
macro_rules | `(tactic| refn1) => `(tactic| with_reducible exact refines_i32 _ _)

theorem refines_u128 (cfg : Cfg) (n : Nat) :
    Refines (U128.arith cfg n : Res ε _) (U128.arith (rel cfg) n) := by
  unfold U128.arith
  refine Refines.ite (fun _ => Refines.refl _) (fun _ => ?_)
  cases h : cfg.overflowChecks
  · exact Refines.refl _
  · exact Refines.panic _
macro_rules | `(tactic| refn1) => `(tactic| with_reducible exact refines_u128 _ _)

theorem refines_rdivThreshold (cfg : Cfg) (x d r : Nat) :
    Refines (rdivThreshold cfg x d r : Res ε _) (rdivThreshold (rel cfg) x d r) := by
  unfold rdivThreshold; refn
macro_rules | `(tactic| refn1) => `(tactic| with_reducible exact refines_rdivThreshold _ _ _ _)

theorem refines_rdivByExponent10 (cfg : Cfg) (x e : Nat) :
    Refines (rdivByExponent10 cfg x e : Res ε _) (rdivByExponent10 (rel cfg) x e) := by
  unfold rdivByExponent10
  split <;> refn
macro_rules | `(tactic| refn1) => `(tactic| with_reducible exact refines_rdivByExponent10 _ _ _)

theorem refines_absorb (cfg : Cfg) : ∀ (n : Nat) (s : Scaled),
    Refines (absorb cfg n s : Res ε _) (absorb (rel cfg) n s)
  | 0, s => by unfold absorb; refn
  | n + 1, ⟨b, e5, e10⟩ => by
    have ih := fun s => refines_absorb cfg n s
    unfold absorb
    refine Refines.ite (fun _ => Refines.ite (fun _ => ?_) (fun _ => ?_)) (fun _ => Refines.refl _)
    · exact Refines.bind (refines_i32 _ _) fun _ => Refines.bind (refines_i32 _ _) fun _ => ih _
    · split
      · exact Refines.bind (refines_i32 _ _) fun _ => ih _
      · exact Refines.bind (refines_i32 _ _) fun _ => Refines.bind (refines_i32 _ _) fun _ => ih _
macro_rules | `(tactic| refn1) => `(tactic| with_reducible exact refines_absorb _ _ _)

theorem refines_multiply5 (cfg : Cfg) (b : Nat) (e : Int) :
    Refines (multiply5 cfg b e : Res ε _) (multiply5 (rel cfg) b e) := by
  unfold multiply5
  dsimp only
  refn
  split <;> refn
macro_rules | `(tactic| refn1) => `(tactic| with_reducible exact refines_multiply5 _ _ _)

theorem refines_scaleDown (cfg : Cfg) (s : Scaled) :
    Refines (scaleDown cfg s : Res ε _) (scaleDown (rel cfg) s) := by
  unfold scaleDown; dsimp only; refn
macro_rules | `(tactic| refn1) => `(tactic| with_reducible exact refines_scaleDown _ _)

theorem refines_scaleUp (cfg : Cfg) : ∀ (n : Nat) (s : Scaled),
    Refines (scaleUp cfg n s : Res ε _) (scaleUp (rel cfg) n s)
  | 0, s => by unfold scaleUp; refn
  | n + 1, ⟨b, e5, e10⟩ => by
    have ih := fun s => refines_scaleUp cfg n s
    unfold scaleUp
    refine Refines.ite (fun _ => Refines.ite (fun _ => ?_) (fun _ => ?_)) (fun _ => Refines.refl _)
    · exact Refines.bind (refines_i32 _ _) fun _ => Refines.bind (refines_i32 _ _) fun _ => ih _
    · exact Refines.bind (refines_i32 _ _) fun _ => Refines.bind (Refines.refl _) fun _ => ih _
macro_rules | `(tactic| refn1) => `(tactic| with_reducible exact refines_scaleUp _ _ _)

theorem refines_trim (cfg : Cfg) (b : Nat) (e : Int) :
    Refines (trim cfg b e : Res ε _) (trim (rel cfg) b e) := by
  unfold trim; dsimp only; refn
macro_rules | `(tactic| refn1) => `(tactic| with_reducible exact refines_trim _ _ _)

theorem refines_rescale (cfg : Cfg) (P : Nat) (b : Nat) (e : Int) :
    Refines (rescale cfg P b e) (rescale (rel cfg) P b e) := by
  unfold rescale; refn
macro_rules | `(tactic| refn1) => `(tactic| with_reducible exact refines_rescale _ _ _ _)

theorem FP.refines_tryFromF64 (cfg : Cfg) (f : BitVec 64) :
    Refines (FP.tryFromF64 cfg f : Res ConvErr (FP L P)) (FP.tryFromF64 (rel cfg) f) := by
  unfold FP.tryFromF64; dsimp only; refn

theorem FP.refines_toF64 (cfg : Cfg) (a : FP L P) :
    Refines (FP.toF64 cfg a : Res ε _) (FP.toF64 (rel cfg) a) := by
  unfold FP.toF64; dsimp only; refn

end Fixnum
