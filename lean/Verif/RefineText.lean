import Verif.Refine
import Verif.Strings

/-! # Build profiles: printing and parsing -/

namespace Fixnum

open Res

variable {L : Layout} {P : Nat} {ε : Type}

theorem strBufMaxLen_rel (cfg : Cfg) : strBufMaxLen (rel cfg) = strBufMaxLen cfg := rfl

theorem refines_push (cfg : Cfg) (b : StrBuf) (c : Char) :
    Refines (b.push cfg c : Res ε StrBuf) (b.push (rel cfg) c) := by
  unfold StrBuf.push; rw [strBufMaxLen_rel]; refn
macro_rules | `(tactic| refn1) => `(tactic| with_reducible exact refines_push _ _ _)

theorem refines_pushStr (cfg : Cfg) (b : StrBuf) (s : List Char) :
    Refines (b.pushStr cfg s : Res ε StrBuf) (b.pushStr (rel cfg) s) := by
  unfold StrBuf.pushStr; rw [strBufMaxLen_rel]; refn
macro_rules | `(tactic| refn1) => `(tactic| with_reducible exact refines_pushStr _ _ _)

theorem FP.refines_stringifyFrac (cfg : Cfg) (c f : BitVec L.bits) (b : StrBuf) :
    Refines (FP.stringifyFrac cfg c f b : Res ε StrBuf) (FP.stringifyFrac (rel cfg) c f b) := by
  unfold FP.stringifyFrac; refn
macro_rules | `(tactic| refn1) => `(tactic| with_reducible exact FP.refines_stringifyFrac _ _ _ _)

theorem FP.refines_display (cfg : Cfg) (x : FP L P) :
    Refines (FP.display cfg x : Res ε (List Char)) (FP.display (rel cfg) x) := by
  unfold FP.display FP.stringify; dsimp only; refn

theorem FP.refines_parseParts (cfg : Cfg) (exact : Bool) (i : BitVec L.bits) (f : List Char)
    (s : BitVec L.bits) (r : Option (BitVec L.bits)) :
    Refines (FP.parseParts cfg exact i f s r : Res ConvErr (FP L P))
      (FP.parseParts (rel cfg) exact i f s r) := by
  unfold FP.parseParts; cases r <;> (dsimp only; refn)
macro_rules
  | `(tactic| refn1) => `(tactic| with_reducible exact FP.refines_parseParts _ _ _ _ _ _)

theorem FP.refines_parseStr (cfg : Cfg) (exact : Bool) (s : List Char) :
    Refines (FP.parseStr cfg exact s : Res ConvErr (FP L P)) (FP.parseStr (rel cfg) exact s) := by
  unfold FP.parseStr; dsimp only
  rcases splitPoint (strTrim s) with _ | ⟨a, b⟩ <;> (dsimp only; refn)

end Fixnum
