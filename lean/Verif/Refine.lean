import Verif.FixedPoint

/-!
# Build profiles

`rel cfg` is the same build with overflow checks and debug assertions switched off.  Every
operation of the model, run in the build `cfg`, either panics or gives exactly the result of the
build `rel cfg`.
-/

namespace Fixnum

open Res

variable {ε ε' α β : Type}

/-- The build with overflow checks and debug assertions off. -/
def rel (cfg : Cfg) : Cfg := { cfg with overflowChecks := false, debugAssertions := false }

/-- The first outcome is a panic or the two outcomes are equal. -/
def Refines (r r' : Res ε α) : Prop := r = .panic ∨ r = r'

namespace Refines

theorem refl (r : Res ε α) : Refines r r := Or.inr rfl

theorem panic (r : Res ε α) : Refines .panic r := Or.inl rfl

theorem bind {x x' : Res ε α} {f f' : α → Res ε β} (h : Refines x x')
    (hf : ∀ a, Refines (f a) (f' a)) : Refines (x >>= f) (x' >>= f') := by
  rcases h with h | h
  · left; rw [h]; rfl
  · rw [h]
    cases x' with
    | ok a => exact hf a
    | err e => exact refl _
    | fault k => exact refl _

theorem ite {c : Prop} [Decidable c] {a a' b b' : Res ε α} (h1 : c → Refines a a')
    (h2 : ¬ c → Refines b b') : Refines (if c then a else b) (if c then a' else b') := by
  split
  · exact h1 ‹_›
  · exact h2 ‹_›

theorem unwrap {r r' : Res ε α} (h : Refines r r') :
    Refines (Res.unwrap r : Res ε' α) (Res.unwrap r') := by
  rcases h with h | h <;> rw [h]
  · exact panic _
  · exact refl _

theorem mapErr {r r' : Res ε α} (f : ε → ε') (h : Refines r r') :
    Refines (Res.mapErr r f) (Res.mapErr r' f) := by
  rcases h with h | h <;> rw [h]
  · exact panic _
  · exact refl _

theorem mapOk {r r' : Res ε α} (f : α → β) (h : Refines r r') :
    Refines (Res.mapOk r f) (Res.mapOk r' f) := by
  rcases h with h | h <;> rw [h]
  · exact panic _
  · exact refl _

theorem unwrapOr {r r' : Res ε α} (d : α) (h : Refines r r') :
    Refines (Res.unwrapOr r d : Res ε' α) (Res.unwrapOr r' d) := by
  rcases h with h | h <;> rw [h]
  · exact panic _
  · exact refl _

theorem foldlM {σ γ : Type} {f f' : σ → γ → Res ε σ} (hf : ∀ s c, Refines (f s c) (f' s c)) :
    ∀ (l : List γ) (s : σ), Refines (l.foldlM f s) (l.foldlM f' s)
  | [], _ => refl _
  | c :: l, s => by
    rw [List.foldlM_cons, List.foldlM_cons]
    exact bind (hf s c) fun s' => foldlM hf l s'

end Refines

/-- One proof step; extended below by every lemma proved. -/
syntax "refn1" : tactic
macro_rules | `(tactic| refn1) => `(tactic| with_reducible refine Refines.bind ?_ fun _ => ?_)
macro_rules | `(tactic| refn1) => `(tactic| with_reducible refine Refines.ite (fun _ => ?_) (fun _ => ?_))
macro_rules | `(tactic| refn1) => `(tactic| with_reducible refine Refines.foldlM (fun _ _ => ?_) _ _)
macro_rules | `(tactic| refn1) => `(tactic| with_reducible refine Refines.unwrap ?_)
macro_rules | `(tactic| refn1) => `(tactic| with_reducible refine Refines.mapErr _ ?_)
macro_rules | `(tactic| refn1) => `(tactic| with_reducible refine Refines.mapOk _ ?_)
macro_rules | `(tactic| refn1) => `(tactic| with_reducible refine Refines.unwrapOr _ ?_)
macro_rules | `(tactic| refn1) => `(tactic| with_reducible exact Refines.refl _)
macro_rules | `(tactic| refn1) => `(tactic| with_reducible exact Refines.panic _)
macro_rules | `(tactic| refn1) => `(tactic| with_reducible assumption)

/-- Repeats `refn1`. -/
macro "refn" : tactic => `(tactic| (repeat' refn1))

theorem refines_debugAssert (cfg : Cfg) (b : Bool) :
    Refines (debugAssert cfg b : Res ε Unit) (debugAssert (rel cfg) b) := by
  have h : (debugAssert (rel cfg) b : Res ε Unit) = .ok () := rfl
  rw [h]
  unfold debugAssert
  split
  · exact Refines.panic _
  · exact Refines.refl _
macro_rules | `(tactic| refn1) => `(tactic| with_reducible exact refines_debugAssert _ _)

theorem SInt.refines_arith (cfg : Cfg) (w : Nat) (z : Int) :
    Refines (SInt.arith cfg w z : Res ε _) (SInt.arith (rel cfg) w z) := by
  rw [SInt.arith_wrap (rel cfg) rfl]
  unfold SInt.arith
  split
  · exact Refines.refl _
  · split
    · exact Refines.panic _
    · exact Refines.refl _

theorem UInt.refines_arith (cfg : Cfg) (w : Nat) (z : Int) :
    Refines (UInt.arith cfg w z : Res ε _) (UInt.arith (rel cfg) w z) := by
  have h : (UInt.arith (rel cfg) w z : Res ε _) = .ok (BitVec.ofInt w z) := by
    unfold UInt.arith; split <;> rfl
  rw [h]
  unfold UInt.arith
  split
  · exact Refines.refl _
  · split
    · exact Refines.panic _
    · exact Refines.refl _

theorem SInt.refines_add (cfg : Cfg) {w : Nat} (a b : BitVec w) :
    Refines (SInt.add cfg a b : Res ε _) (SInt.add (rel cfg) a b) := SInt.refines_arith _ _ _
macro_rules | `(tactic| refn1) => `(tactic| with_reducible exact SInt.refines_add _ _ _)
theorem SInt.refines_sub (cfg : Cfg) {w : Nat} (a b : BitVec w) :
    Refines (SInt.sub cfg a b : Res ε _) (SInt.sub (rel cfg) a b) := SInt.refines_arith _ _ _
macro_rules | `(tactic| refn1) => `(tactic| with_reducible exact SInt.refines_sub _ _ _)
theorem SInt.refines_mul (cfg : Cfg) {w : Nat} (a b : BitVec w) :
    Refines (SInt.mul cfg a b : Res ε _) (SInt.mul (rel cfg) a b) := SInt.refines_arith _ _ _
macro_rules | `(tactic| refn1) => `(tactic| with_reducible exact SInt.refines_mul _ _ _)
theorem SInt.refines_neg (cfg : Cfg) {w : Nat} (a : BitVec w) :
    Refines (SInt.neg cfg a : Res ε _) (SInt.neg (rel cfg) a) := SInt.refines_arith _ _ _
macro_rules | `(tactic| refn1) => `(tactic| with_reducible exact SInt.refines_neg _ _)
theorem SInt.refines_abs (cfg : Cfg) {w : Nat} (a : BitVec w) :
    Refines (SInt.abs cfg a : Res ε _) (SInt.abs (rel cfg) a) := SInt.refines_arith _ _ _
macro_rules | `(tactic| refn1) => `(tactic| with_reducible exact SInt.refines_abs _ _)
theorem SInt.refines_pow (cfg : Cfg) {w : Nat} (a : BitVec w) (n : Nat) :
    Refines (SInt.pow cfg a n : Res ε _) (SInt.pow (rel cfg) a n) := SInt.refines_arith _ _ _
macro_rules | `(tactic| refn1) => `(tactic| with_reducible exact SInt.refines_pow _ _ _)
theorem UInt.refines_add (cfg : Cfg) {w : Nat} (a b : BitVec w) :
    Refines (UInt.add cfg a b : Res ε _) (UInt.add (rel cfg) a b) := UInt.refines_arith _ _ _
macro_rules | `(tactic| refn1) => `(tactic| with_reducible exact UInt.refines_add _ _ _)
theorem UInt.refines_sub (cfg : Cfg) {w : Nat} (a b : BitVec w) :
    Refines (UInt.sub cfg a b : Res ε _) (UInt.sub (rel cfg) a b) := UInt.refines_arith _ _ _
macro_rules | `(tactic| refn1) => `(tactic| with_reducible exact UInt.refines_sub _ _ _)
theorem UInt.refines_mul (cfg : Cfg) {w : Nat} (a b : BitVec w) :
    Refines (UInt.mul cfg a b : Res ε _) (UInt.mul (rel cfg) a b) := UInt.refines_arith _ _ _
macro_rules | `(tactic| refn1) => `(tactic| with_reducible exact UInt.refines_mul _ _ _)

theorem UInt.refines_shl (cfg : Cfg) {w : Nat} (a : BitVec w) (s : Nat) :
    Refines (UInt.shl cfg a s : Res ε _) (UInt.shl (rel cfg) a s) := by
  unfold UInt.shl
  refn
  cases h : cfg.overflowChecks
  · exact Refines.refl _
  · exact Refines.panic _
macro_rules | `(tactic| refn1) => `(tactic| with_reducible exact UInt.refines_shl _ _ _)
theorem UInt.refines_shr (cfg : Cfg) {w : Nat} (a : BitVec w) (s : Nat) :
    Refines (UInt.shr cfg a s : Res ε _) (UInt.shr (rel cfg) a s) := by
  unfold UInt.shr
  refn
  cases h : cfg.overflowChecks
  · exact Refines.refl _
  · exact Refines.panic _
macro_rules | `(tactic| refn1) => `(tactic| with_reducible exact UInt.refines_shr _ _ _)

theorem IntTy.refines_arith (cfg : Cfg) (t : IntTy) (z : Int) :
    Refines (IntTy.arith cfg t z : Res ε _) (IntTy.arith (rel cfg) t z) := by
  unfold IntTy.arith
  refn
  cases h : cfg.overflowChecks
  · exact Refines.refl _
  · exact Refines.panic _
macro_rules | `(tactic| refn1) => `(tactic| with_reducible exact IntTy.refines_arith _ _ _)

/-! ## `U256`, `I256` -/

namespace U256

theorem refines_mulStep (cfg : Cfg) (a b : W64) (k : Nat) (st) :
    Refines (mulStep cfg a b k st : Res ε _) (mulStep (rel cfg) a b k st) := by
  unfold mulStep; dsimp only; refn
macro_rules | `(tactic| refn1) => `(tactic| with_reducible exact refines_mulStep _ _ _ _ _)

theorem refines_mulRow (cfg : Cfg) (me : U256) (b : W64) (i : Nat) (ret) :
    Refines (mulRow cfg me b i ret : Res ε _) (mulRow (rel cfg) me b i ret) := by
  unfold mulRow; refn
macro_rules | `(tactic| refn1) => `(tactic| with_reducible exact refines_mulRow _ _ _ _ _)

theorem refines_fullMul (cfg : Cfg) (x y : U256) :
    Refines (fullMul cfg x y : Res ε _) (fullMul (rel cfg) x y) := by
  unfold fullMul; dsimp only; refn
macro_rules | `(tactic| refn1) => `(tactic| with_reducible exact refines_fullMul _ _ _)

theorem refines_overflowingMul (cfg : Cfg) (x y : U256) :
    Refines (overflowingMul cfg x y : Res ε _) (overflowingMul (rel cfg) x y) := by
  unfold overflowingMul; refn
macro_rules | `(tactic| refn1) => `(tactic| with_reducible exact U256.refines_overflowingMul _ _ _)

theorem refines_mul (cfg : Cfg) (x y : U256) :
    Refines (mul cfg x y : Res ε _) (mul (rel cfg) x y) := by
  unfold mul; refn
macro_rules | `(tactic| refn1) => `(tactic| with_reducible exact U256.refines_mul _ _ _)

theorem refines_addAt (cfg : Cfg) (ret) (i : Nat) (v : W64) :
    Refines (addAt cfg ret i v : Res ε _) (addAt (rel cfg) ret i v) := by
  unfold addAt; refn
macro_rules | `(tactic| refn1) => `(tactic| with_reducible exact refines_addAt _ _ _ _)

theorem refines_shl (cfg : Cfg) (x : U256) (s : Nat) :
    Refines (shl cfg x s : Res ε _) (shl (rel cfg) x s) := by
  unfold shl; dsimp only; refn
macro_rules | `(tactic| refn1) => `(tactic| with_reducible exact U256.refines_shl _ _ _)

theorem refines_shr (cfg : Cfg) (x : U256) (s : Nat) :
    Refines (shr cfg x s : Res ε _) (shr (rel cfg) x s) := by
  unfold shr; dsimp only; refn
macro_rules | `(tactic| refn1) => `(tactic| with_reducible exact U256.refines_shr _ _ _)

theorem refines_fullShl (cfg : Cfg) (x : U256) (s : Nat) :
    Refines (fullShl cfg x s : Res ε _) (fullShl (rel cfg) x s) := by
  unfold fullShl; refn
macro_rules | `(tactic| refn1) => `(tactic| with_reducible exact refines_fullShl _ _ _)

theorem refines_fullShrWord (cfg : Cfg) (u) (s i : Nat) :
    Refines (fullShrWord cfg u s i : Res ε _) (fullShrWord (rel cfg) u s i) := by
  unfold fullShrWord; refn
macro_rules | `(tactic| refn1) => `(tactic| with_reducible exact refines_fullShrWord _ _ _ _)

theorem refines_fullShr (cfg : Cfg) (u) (s : Nat) :
    Refines (fullShr cfg u s : Res ε _) (fullShr (rel cfg) u s) := by
  unfold fullShr; refn
macro_rules | `(tactic| refn1) => `(tactic| with_reducible exact refines_fullShr _ _ _)

theorem refines_mulU64 (cfg : Cfg) (a b c : W64) :
    Refines (mulU64 cfg a b c : Res ε _) (mulU64 (rel cfg) a b c) := by
  unfold mulU64; dsimp only; refn
macro_rules | `(tactic| refn1) => `(tactic| with_reducible exact refines_mulU64 _ _ _ _)

theorem refines_overflowingMulU64 (cfg : Cfg) (x : U256) (o : W64) :
    Refines (overflowingMulU64 cfg x o : Res ε _) (overflowingMulU64 (rel cfg) x o) := by
  unfold overflowingMulU64; refn
macro_rules | `(tactic| refn1) => `(tactic| with_reducible exact refines_overflowingMulU64 _ _ _)

theorem refines_fullMulU64 (cfg : Cfg) (x : U256) (o : W64) :
    Refines (fullMulU64 cfg x o : Res ε _) (fullMulU64 (rel cfg) x o) := by
  unfold fullMulU64; refn
macro_rules | `(tactic| refn1) => `(tactic| with_reducible exact refines_fullMulU64 _ _ _)

theorem refines_dmwLoop (cfg : Cfg) (a b c : W64) : ∀ (n : Nat) (q r : W64),
    Refines (dmwLoop cfg a b c n q r : Res ε _) (dmwLoop (rel cfg) a b c n q r)
  | 0, _, _ => Refines.refl _
  | n + 1, q, r => by
    have ih := refines_dmwLoop cfg a b c n
    unfold dmwLoop
    refn
    all_goals exact ih _ _
macro_rules | `(tactic| refn1) => `(tactic| with_reducible exact refines_dmwLoop _ _ _ _ _ _ _)

theorem refines_divModWord (cfg : Cfg) (hi lo y : W64) :
    Refines (divModWord cfg hi lo y : Res ε _) (divModWord (rel cfg) hi lo y) := by
  unfold divModWord; dsimp only; refn
macro_rules | `(tactic| refn1) => `(tactic| with_reducible exact refines_divModWord _ _ _ _)

theorem refines_divModSmall (cfg : Cfg) (x : U256) (o : W64) :
    Refines (divModSmall cfg x o : Res ε _) (divModSmall (rel cfg) x o) := by
  unfold divModSmall; refn
macro_rules | `(tactic| refn1) => `(tactic| with_reducible exact refines_divModSmall _ _ _)

theorem refines_qhatLoop (cfg : Cfg) (a b c : W64) : ∀ (n : Nat) (q r : W64),
    Refines (qhatLoop cfg a b c n q r : Res ε _) (qhatLoop (rel cfg) a b c n q r)
  | 0, _, _ => Refines.refl _
  | n + 1, q, r => by
    have ih := refines_qhatLoop cfg a b c n
    unfold qhatLoop
    dsimp only
    refn
    all_goals exact ih _ _
macro_rules | `(tactic| refn1) => `(tactic| with_reducible exact refines_qhatLoop _ _ _ _ _ _ _)

theorem refines_knuthQhat (cfg : Cfg) (u) (n : Nat) (a b : W64) (j : Nat) :
    Refines (knuthQhat cfg u n a b j : Res ε _) (knuthQhat (rel cfg) u n a b j) := by
  unfold knuthQhat; refn
macro_rules | `(tactic| refn1) => `(tactic| with_reducible exact refines_knuthQhat _ _ _ _ _ _)

theorem refines_knuthStep (cfg : Cfg) (v : U256) (n : Nat) (a b : W64) (j : Nat) (st) :
    Refines (knuthStep cfg v n a b j st : Res ε _) (knuthStep (rel cfg) v n a b j st) := by
  unfold knuthStep; dsimp only; refn
macro_rules | `(tactic| refn1) => `(tactic| with_reducible exact refines_knuthStep _ _ _ _ _ _ _)

theorem refines_divModKnuth (cfg : Cfg) (x v : U256) (n m : Nat) :
    Refines (divModKnuth cfg x v n m : Res ε _) (divModKnuth (rel cfg) x v n m) := by
  unfold divModKnuth; dsimp only; refn
macro_rules | `(tactic| refn1) => `(tactic| with_reducible exact refines_divModKnuth _ _ _ _ _)

theorem refines_wordCount (cfg : Cfg) (n : Nat) :
    Refines (wordCount cfg n : Res ε _) (wordCount (rel cfg) n) := by
  unfold wordCount; refn
macro_rules | `(tactic| refn1) => `(tactic| with_reducible exact refines_wordCount _ _)

theorem refines_divMod (cfg : Cfg) (x y : U256) :
    Refines (divMod cfg x y : Res ε _) (divMod (rel cfg) x y) := by
  unfold divMod; dsimp only; refn
macro_rules | `(tactic| refn1) => `(tactic| with_reducible exact refines_divMod _ _ _)

theorem refines_div (cfg : Cfg) (x y : U256) :
    Refines (div cfg x y : Res ε _) (div (rel cfg) x y) := by
  unfold div; refn
macro_rules | `(tactic| refn1) => `(tactic| with_reducible exact U256.refines_div _ _ _)

end U256

namespace I256

theorem refines_neg (cfg : Cfg) (x : I256) :
    Refines (neg cfg x : Res ε _) (neg (rel cfg) x) := by
  unfold neg; refn
macro_rules | `(tactic| refn1) => `(tactic| with_reducible exact I256.refines_neg _ _)

theorem refines_negIf (cfg : Cfg) (b : Bool) (x : I256) :
    Refines (negIf cfg b x : Res ε _) (negIf (rel cfg) b x) := by
  unfold negIf; refn
macro_rules | `(tactic| refn1) => `(tactic| with_reducible exact I256.refines_negIf _ _ _)

theorem refines_mul (cfg : Cfg) (x y : I256) :
    Refines (mul cfg x y : Res ε _) (mul (rel cfg) x y) := by
  unfold mul; dsimp only; refn
macro_rules | `(tactic| refn1) => `(tactic| with_reducible exact I256.refines_mul _ _ _)

theorem refines_div (cfg : Cfg) (x y : I256) :
    Refines (div cfg x y : Res ε _) (div (rel cfg) x y) := by
  unfold div; dsimp only; refn
macro_rules | `(tactic| refn1) => `(tactic| with_reducible exact I256.refines_div _ _ _)

end I256

/-! ## Square roots -/

theorem refines_sqrtGuess (cfg : Cfg) (t : IntTy) (x : Int) :
    Refines (sqrtGuess cfg t x : Res ε _) (sqrtGuess (rel cfg) t x) := by
  unfold sqrtGuess
  have : (rel cfg).std = cfg.std := rfl
  rw [this]
  dsimp only
  refn
macro_rules | `(tactic| refn1) => `(tactic| with_reducible exact refines_sqrtGuess _ _ _)

theorem refines_sqrtNext (cfg : Cfg) (t : IntTy) (n x : Int) :
    Refines (sqrtNext cfg t n x : Res ε _) (sqrtNext (rel cfg) t n x) := by
  unfold sqrtNext; refn
macro_rules | `(tactic| refn1) => `(tactic| with_reducible exact refines_sqrtNext _ _ _ _)

theorem refines_fixpointUp (cfg : Cfg) (t : IntTy) (m : Int) : ∀ (n : Nat) (q r : Int),
    Refines (fixpointUp cfg t m n q r : Res ε _) (fixpointUp (rel cfg) t m n q r)
  | 0, _, _ => Refines.refl _
  | n + 1, q, r => by
    have ih := refines_fixpointUp cfg t m n
    unfold fixpointUp
    refn
    all_goals exact ih _ _
macro_rules | `(tactic| refn1) => `(tactic| with_reducible exact refines_fixpointUp _ _ _ _ _ _)

theorem refines_fixpointDown (cfg : Cfg) (t : IntTy) (m : Int) : ∀ (n : Nat) (q r : Int),
    Refines (fixpointDown cfg t m n q r : Res ε _) (fixpointDown (rel cfg) t m n q r)
  | 0, _, _ => Refines.refl _
  | n + 1, q, r => by
    have ih := refines_fixpointDown cfg t m n
    unfold fixpointDown
    refn
    all_goals exact ih _ _
macro_rules | `(tactic| refn1) => `(tactic| with_reducible exact refines_fixpointDown _ _ _ _ _ _)

theorem refines_fixpoint (cfg : Cfg) (t : IntTy) (n x : Int) :
    Refines (fixpoint cfg t n x : Res ε _) (fixpoint (rel cfg) t n x) := by
  unfold fixpoint; refn
macro_rules | `(tactic| refn1) => `(tactic| with_reducible exact refines_fixpoint _ _ _ _)

theorem refines_sqrtSmall (cfg : Cfg) (t : IntTy) (n : Int) :
    Refines (sqrtSmall cfg t n : Res ε _) (sqrtSmall (rel cfg) t n) := by
  unfold sqrtSmall; refn
macro_rules | `(tactic| refn1) => `(tactic| with_reducible exact refines_sqrtSmall _ _ _)

theorem refines_sqrtWide (cfg : Cfg) (t : IntTy) : ∀ (f : Nat) (n : Int),
    Refines (sqrtWide cfg t f n : Res ε _) (sqrtWide (rel cfg) t f n)
  | 0, _ => Refines.refl _
  | f + 1, n => by
    have ih := refines_sqrtWide cfg t f
    unfold sqrtWide
    refn
    exact ih _
macro_rules | `(tactic| refn1) => `(tactic| with_reducible exact refines_sqrtWide _ _ _ _)

theorem refines_sqrtPrim (cfg : Cfg) (t : IntTy) (n : Int) :
    Refines (sqrtPrim cfg t n : Res ε _) (sqrtPrim (rel cfg) t n) := by
  unfold sqrtPrim; refn
macro_rules | `(tactic| refn1) => `(tactic| with_reducible exact refines_sqrtPrim _ _ _)

theorem U256.refines_sqrt (cfg : Cfg) : ∀ (f : Nat) (x : U256),
    Refines (U256.sqrt cfg f x : Res ε _) (U256.sqrt (rel cfg) f x)
  | 0, _ => Refines.refl _
  | f + 1, x => by
    have ih := U256.refines_sqrt cfg f
    unfold U256.sqrt
    cases U256.tryToU128 x with
    | some v => dsimp only; refn
    | none =>
      dsimp only
      refn
      exact ih _
macro_rules | `(tactic| refn1) => `(tactic| with_reducible exact U256.refines_sqrt _ _ _)

theorem I256.refines_sqrt (cfg : Cfg) (x : I256) :
    Refines (I256.sqrt cfg x : Res ε _) (I256.sqrt (rel cfg) x) := by
  unfold I256.sqrt; refn
macro_rules | `(tactic| refn1) => `(tactic| with_reducible exact I256.refines_sqrt _ _)

/-! ## The promotion types -/

/-- All operations of a promotion type refine. -/
structure PromRefines {w : Nat} (p : PromOps w) : Prop where
  mul : ∀ cfg x y, Refines (p.mul cfg x y) (p.mul (rel cfg) x y)
  div : ∀ cfg x y, Refines (p.div cfg x y) (p.div (rel cfg) x y)
  add : ∀ cfg x y, Refines (p.add cfg x y) (p.add (rel cfg) x y)
  sub : ∀ cfg x y, Refines (p.sub cfg x y) (p.sub (rel cfg) x y)
  sqrt : ∀ cfg x, Refines (p.sqrt cfg x) (p.sqrt (rel cfg) x)

theorem primProm_refines (w W : Nat) : PromRefines (primProm w W) where
  mul cfg x y := SInt.refines_mul cfg x y
  div _ _ _ := Refines.refl _
  add cfg x y := SInt.refines_add cfg x y
  sub cfg x y := SInt.refines_sub cfg x y
  sqrt cfg _ := Refines.bind (refines_sqrtPrim cfg _ _) fun _ => Refines.refl _

theorem i256Prom_refines : PromRefines i256Prom where
  mul cfg x y := I256.refines_mul cfg x y
  div cfg x y := I256.refines_div cfg x y
  add _ _ _ := Refines.refl _
  sub _ _ _ := Refines.refl _
  sqrt cfg x := I256.refines_sqrt cfg x

theorem prom_refines (L : Layout) : PromRefines (prom L) := by
  cases L
  · exact primProm_refines 16 32
  · exact primProm_refines 32 64
  · exact primProm_refines 64 128
  · exact i256Prom_refines
macro_rules | `(tactic| refn1) => `(tactic| with_reducible exact (prom_refines _).mul _ _ _)
macro_rules | `(tactic| refn1) => `(tactic| with_reducible exact (prom_refines _).div _ _ _)
macro_rules | `(tactic| refn1) => `(tactic| with_reducible exact (prom_refines _).add _ _ _)
macro_rules | `(tactic| refn1) => `(tactic| with_reducible exact (prom_refines _).sub _ _ _)
macro_rules | `(tactic| refn1) => `(tactic| with_reducible exact (prom_refines _).sqrt _ _)

/-! ## Constants and fixed-point operations -/

theorem refines_pow10Loop (cfg : Cfg) : ∀ (n : Nat) (r : BitVec (intBits cfg)),
    Refines (pow10Loop cfg n r : Res ε _) (pow10Loop (rel cfg) n r)
  | 0, _ => Refines.refl _
  | n + 1, r => by
    have ih := refines_pow10Loop cfg n
    unfold pow10Loop
    exact Refines.bind (SInt.refines_mul cfg r _) fun a => ih a

theorem refines_pow10 (cfg : Cfg) (n : Nat) :
    Refines (pow10 cfg n : Res ε _) (pow10 (rel cfg) n) := by
  unfold pow10
  refine Refines.ite (fun _ => Refines.refl _) fun _ => ?_
  exact Refines.bind (Refines.refl _) fun _ => refines_pow10Loop cfg _ _

variable {L : Layout} {P : Nat}

theorem refines_coef (cfg : Cfg) (L : Layout) (P : Nat) :
    Refines (coef cfg L P : Res ε _) (coef (rel cfg) L P) := by
  unfold coef
  exact Refines.bind (refines_pow10 cfg P) fun _ => Refines.refl _
macro_rules | `(tactic| refn1) => `(tactic| with_reducible exact refines_coef _ _ _)

theorem refines_negCoef (cfg : Cfg) (L : Layout) (P : Nat) :
    Refines (negCoef cfg L P : Res ε _) (negCoef (rel cfg) L P) := by
  unfold negCoef
  exact Refines.bind (refines_coef cfg L P) fun _ => Refines.refl _
macro_rules | `(tactic| refn1) => `(tactic| with_reducible exact refines_negCoef _ _ _)

theorem SInt.refines_rdivTest (cfg : Cfg) {w : Nat} (l s r : BitVec w) (mode : RoundMode) :
    Refines (SInt.rdivTest cfg l s r mode) (SInt.rdivTest (rel cfg) l s r mode) := by
  unfold SInt.rdivTest; refn
macro_rules | `(tactic| refn1) => `(tactic| with_reducible exact SInt.refines_rdivTest _ _ _ _ _)

theorem SInt.refines_rdiv (cfg : Cfg) {w : Nat} (a b : BitVec w) (mode : RoundMode) :
    Refines (SInt.rdiv cfg a b mode) (SInt.rdiv (rel cfg) a b mode) := by
  unfold SInt.rdiv; refn
macro_rules | `(tactic| refn1) => `(tactic| with_reducible exact SInt.refines_rdiv _ _ _ _)

namespace FP

theorem refines_one (cfg : Cfg) :
    Refines (one cfg : Res ε (FP L P)) (one (rel cfg)) := by
  unfold one; refn
macro_rules | `(tactic| refn1) => `(tactic| with_reducible exact FP.refines_one _)

theorem refines_rmulTest (cfg : Cfg) (c l s : BitVec L.bits) (mode : RoundMode) :
    Refines (rmulTest cfg P c l s mode) (rmulTest (rel cfg) P c l s mode) := by
  unfold rmulTest rmulUp rmulDown; refn
macro_rules | `(tactic| refn1) => `(tactic| with_reducible exact FP.refines_rmulTest _ _ _ _ _)

theorem refines_rmul (cfg : Cfg) (a b : FP L P) (mode : RoundMode) :
    Refines (rmul cfg a b mode) (rmul (rel cfg) a b mode) := by
  unfold rmul; dsimp only; refn
macro_rules | `(tactic| refn1) => `(tactic| with_reducible exact FP.refines_rmul _ _ _ _)

theorem refines_rdiv (cfg : Cfg) (a b : FP L P) (mode : RoundMode) :
    Refines (rdiv cfg a b mode) (rdiv (rel cfg) a b mode) := by
  unfold rdiv; dsimp only; refn
macro_rules | `(tactic| refn1) => `(tactic| with_reducible exact FP.refines_rdiv _ _ _ _)

theorem refines_rdivInt (cfg : Cfg) (a : FP L P) (b : BitVec L.bits) (mode : RoundMode) :
    Refines (rdivInt cfg a b mode) (rdivInt (rel cfg) a b mode) := by
  unfold rdivInt; refn
macro_rules | `(tactic| refn1) => `(tactic| with_reducible exact FP.refines_rdivInt _ _ _ _)

theorem refines_tryFromInt (cfg : Cfg) (n : Int) :
    Refines (tryFromInt cfg n : Res ConvErr (FP L P)) (tryFromInt (rel cfg) n) := by
  unfold tryFromInt; refn
macro_rules | `(tactic| refn1) => `(tactic| with_reducible exact FP.refines_tryFromInt _ _)

theorem refines_intRdiv (cfg : Cfg) (a : BitVec L.bits) (b : FP L P) (mode : RoundMode) :
    Refines (intRdiv cfg a b mode) (intRdiv (rel cfg) a b mode) := by
  unfold intRdiv; refn
macro_rules | `(tactic| refn1) => `(tactic| with_reducible exact FP.refines_intRdiv _ _ _ _)

theorem refines_saturatingRmul (cfg : Cfg) (a b : FP L P) (mode : RoundMode) :
    Refines (saturatingRmul cfg a b mode : Res ε _) (saturatingRmul (rel cfg) a b mode) := by
  unfold saturatingRmul; dsimp only; refn
macro_rules | `(tactic| refn1) => `(tactic| with_reducible exact FP.refines_saturatingRmul _ _ _ _)

theorem refines_recip (cfg : Cfg) (a : FP L P) (mode : RoundMode) :
    Refines (recip cfg a mode) (recip (rel cfg) a mode) := by
  unfold recip; refn
macro_rules | `(tactic| refn1) => `(tactic| with_reducible exact FP.refines_recip _ _ _)

theorem refines_halfSum (cfg : Cfg) (a b : FP L P) (mode : RoundMode) :
    Refines (halfSum cfg a b mode : Res ε _) (halfSum (rel cfg) a b mode) := by
  unfold halfSum; dsimp only; refn
macro_rules | `(tactic| refn1) => `(tactic| with_reducible exact FP.refines_halfSum _ _ _ _)

theorem refines_integral (cfg : Cfg) (a : FP L P) (mode : RoundMode) :
    Refines (integral cfg a mode : Res ε _) (integral (rel cfg) a mode) := by
  unfold integral integralTest; dsimp only; refn
macro_rules | `(tactic| refn1) => `(tactic| with_reducible exact FP.refines_integral _ _ _)

theorem refines_fromDecimal (cfg : Cfg) (m : BitVec L.bits) (e : Int) :
    Refines (fromDecimal cfg m e : Res ConvErr (FP L P)) (fromDecimal (rel cfg) m e) := by
  unfold fromDecimal; refn
macro_rules | `(tactic| refn1) => `(tactic| with_reducible exact FP.refines_fromDecimal _ _ _)

theorem refines_floor (cfg : Cfg) (a : FP L P) :
    Refines (floor cfg a : Res ε _) (floor (rel cfg) a) := by
  unfold floor; refn
theorem refines_ceil (cfg : Cfg) (a : FP L P) :
    Refines (ceil cfg a : Res ε _) (ceil (rel cfg) a) := by
  unfold ceil; refn
theorem refines_round (cfg : Cfg) (a : FP L P) :
    Refines (round cfg a : Res ε _) (round (rel cfg) a) := by
  unfold round; refn

theorem refines_rsqrtTest (cfg : Cfg) (sq lo : (prom L).T) (mode : RoundMode) :
    Refines (rsqrtTest cfg (prom L) sq lo mode) (rsqrtTest (rel cfg) (prom L) sq lo mode) := by
  cases mode <;> (unfold rsqrtTest; dsimp only; refn)
macro_rules | `(tactic| refn1) => `(tactic| with_reducible exact FP.refines_rsqrtTest _ _ _ _)

theorem refines_rsqrt (cfg : Cfg) (a : FP L P) (mode : RoundMode) :
    Refines (rsqrt cfg a mode) (rsqrt (rel cfg) a mode) := by
  unfold rsqrt; dsimp only; refn

end FP

end Fixnum
