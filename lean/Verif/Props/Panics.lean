import Verif.Props.SerdeModules
import Verif.Props.Printing
import Verif.Props.ToFloat
import Verif.Props.Compact
import Verif.Props.Decimal
import Verif.Props.Sqrt
import Verif.Props.Codec

/-!
# The calls that do not return

C98: for every call of the public interface, whether it panics, writes outside a buffer, or does not
terminate.  The theorems of the single operations say the same for each of them in its place; here
they are put together, so that nothing is left out.
-/

namespace Fixnum

open Res Spec

variable {L : Layout} {P : Nat} {ε : Type}

/-- A call of the public interface with its arguments.  Left out are the functions whose model is
not a `Res` (`saturating_add`, `cmp`, `signum`, `round_towards_zero_by`, …): they always return. -/
inductive Call (L : Layout) (P : Nat) where
  | cadd (a b : FP L P)
  | csub (a b : FP L P)
  | cmul (a : FP L P) (n : BitVec L.bits)
  | intCmul (n : BitVec L.bits) (a : FP L P)
  | cneg (a : FP L P)
  | abs (a : FP L P)
  | rmul (a b : FP L P) (mode : RoundMode)
  | saturatingRmul (a b : FP L P) (mode : RoundMode)
  | rdiv (a b : FP L P) (mode : RoundMode)
  | rdivInt (a : FP L P) (n : BitVec L.bits) (mode : RoundMode)
  | intRdiv (n : BitVec L.bits) (a : FP L P) (mode : RoundMode)
  | recip (a : FP L P) (mode : RoundMode)
  | halfSum (a b : FP L P) (mode : RoundMode)
  | rsqrt (a : FP L P) (mode : RoundMode)
  | integral (a : FP L P) (mode : RoundMode)
  | floor (a : FP L P)
  | ceil (a : FP L P)
  | round (a : FP L P)
  | nextPowerOfTen (a : FP L P)
  | tryFromInt (n : Int)
  | fromDecimal (m : BitVec L.bits) (e : Int)
  | toDecimal (a : FP L P) (maxExp : Int)
  | fromStr (s : List Char)
  | fromStrExact (s : List Char)
  | display (a : FP L P)
  | tryFromF64 (f : BitVec 64)
  | toF64 (a : FP L P)
  | serialize (human : Bool) (a : FP L P)
  | deserialize (quickXml human : Bool) (c : Content)
  | reprDeserialize (c : Content)
  | reprOptionDeserialize (c : Content)
  | strOptionSerialize (a : Option (FP L P))
  | strDeserialize (c : Content)
  | strOptionDeserialize (c : Content)
  | floatSerialize (a : FP L P)
  | floatOptionSerialize (a : Option (FP L P))
  | floatDeserialize (c : Content)
  | floatOptionDeserialize (c : Content)
  | decode (bytes : List (BitVec 8))
  | decodeCompact (bytes : List (BitVec 8))

/-- How a call failed to return, if it did. -/
def faultOf {α : Type} : Res ε α → Option Fault
  | .fault k => some k
  | _ => none

/-- What the call does: `none` if it returns a value or an error. -/
def Call.fate (cfg : Cfg) : Call L P → Option Fault
  | .cadd a b => faultOf (FP.cadd a b)
  | .csub a b => faultOf (FP.csub a b)
  | .cmul a n => faultOf (FP.cmul a n)
  | .intCmul n a => faultOf (FP.intCmul n a)
  | .cneg a => faultOf (FP.cneg a)
  | .abs a => faultOf (FP.abs a)
  | .rmul a b m => faultOf (FP.rmul cfg a b m)
  | .saturatingRmul a b m => faultOf (FP.saturatingRmul cfg a b m : Res Empty _)
  | .rdiv a b m => faultOf (FP.rdiv cfg a b m)
  | .rdivInt a n m => faultOf (FP.rdivInt cfg a n m)
  | .intRdiv n a m => faultOf (FP.intRdiv cfg n a m)
  | .recip a m => faultOf (FP.recip cfg a m)
  | .halfSum a b m => faultOf (FP.halfSum cfg a b m : Res Empty _)
  | .rsqrt a m => faultOf (FP.rsqrt cfg a m)
  | .integral a m => faultOf (FP.integral cfg a m : Res Empty _)
  | .floor a => faultOf (FP.floor cfg a : Res Empty _)
  | .ceil a => faultOf (FP.ceil cfg a : Res Empty _)
  | .round a => faultOf (FP.round cfg a : Res Empty _)
  | .nextPowerOfTen a => faultOf (FP.nextPowerOfTen a)
  | .tryFromInt n => faultOf (FP.tryFromInt cfg n : Res _ (FP L P))
  | .fromDecimal m e => faultOf (FP.fromDecimal cfg m e : Res _ (FP L P))
  | .toDecimal a e => faultOf (FP.toDecimal a e : Res Empty _)
  | .fromStr s => faultOf (FP.fromStr cfg s : Res _ (FP L P))
  | .fromStrExact s => faultOf (FP.fromStrExact cfg s : Res _ (FP L P))
  | .display a => faultOf (FP.display cfg a : Res Empty _)
  | .tryFromF64 f => faultOf (FP.tryFromF64 cfg f : Res _ (FP L P))
  | .toF64 a => faultOf (FP.toF64 cfg a : Res Empty _)
  | .serialize h a => faultOf (FP.serialize cfg h a : Res Empty _)
  | .deserialize q h c => faultOf (FP.deserialize cfg q h c : Res _ (FP L P))
  | .reprDeserialize c => faultOf (FP.reprDeserialize c : Res _ (FP L P))
  | .reprOptionDeserialize c => faultOf (FP.reprOptionDeserialize c : Res _ (Option (FP L P)))
  | .strOptionSerialize a => faultOf (FP.strOptionSerialize cfg a : Res Empty _)
  | .strDeserialize c => faultOf (FP.strDeserialize cfg c : Res _ (FP L P))
  | .strOptionDeserialize c => faultOf (FP.strOptionDeserialize cfg c : Res _ (Option (FP L P)))
  | .floatSerialize a => faultOf (FP.floatSerialize cfg a : Res Empty _)
  | .floatOptionSerialize a => faultOf (FP.floatOptionSerialize cfg a : Res Empty _)
  | .floatDeserialize c => faultOf (FP.floatDeserialize cfg c : Res _ (FP L P))
  | .floatOptionDeserialize c => faultOf (FP.floatOptionDeserialize cfg c : Res _ (Option (FP L P)))
  | .decode bs => faultOf (FP.decode bs : Res _ (FP L P × _))
  | .decodeCompact bs => faultOf (FP.decodeCompact bs : Res _ (FP L P × _))

/-- The printed text is longer than the buffer (of 41 bytes, or 21 without the feature `i128`):
a long negative number without fractional digits, or, without overflow checks, a negative number of
`FixedPoint<i128, U38>` whose fraction overflows (then 39 digits are written after the point, or one
fewer if the last is zero). -/
def TextTooLong (cfg : Cfg) (a : FP L P) : Prop :=
  (P = 0 ∧ ((L = .i64 ∧ cfg.i128 = false ∧ value a ≤ -10 ^ 18) ∨
      (L = .i128 ∧ value a ≤ -10 ^ 38)) ∧
    (value a = minValue L P → cfg.overflowChecks = false)) ∨
  (L = .i128 ∧ P = 38 ∧ cfg.overflowChecks = false ∧ value a < 0 ∧
    maxValue L P < Int.fract |value a| + 1 ∧ a.inner.toInt.natAbs % 10 ≠ 6)

/-- `Nearest` doubles the fractional part, which does not fit (`FixedPoint<i128, U38>` only). -/
def FractionTooLarge (a : FP L P) : Prop := rawMax L < 2 * |a.inner.toInt.tmod (10 ^ P)|

/-- Printing panics: something overflows in a build with overflow checks, or the text is too long in
a build with debug assertions. -/
def PrintPanics (cfg : Cfg) (a : FP L P) : Prop :=
  (cfg.overflowChecks = true ∧ PrintOverflows a) ∨
    (cfg.debugAssertions = true ∧ TextTooLong cfg a)

/-- The calls that panic. -/
def Call.Panics (cfg : Cfg) : Call L P → Prop
  | .rmul a b m => cfg.overflowChecks = true ∧ m = .nearest ∧
      ¬ RmulSafe L P (a.inner.toInt * b.inner.toInt)
  | .saturatingRmul a b m => cfg.overflowChecks = true ∧ m = .nearest ∧
      ¬ RmulSafe L P (a.inner.toInt * b.inner.toInt)
  | .rdiv a b m => cfg.overflowChecks = true ∧ m = .nearest ∧ value b ≠ 0 ∧
      ¬ NearestSafe L (a.inner.toInt * 10 ^ P) b.inner.toInt
  | .rdivInt a n m => (a.inner.toInt = rawMin L ∧ n.toInt = -1) ∨
      (cfg.overflowChecks = true ∧ m = .nearest ∧ n.toInt ≠ 0 ∧
        ¬ IntNearestSafe L.bits a.inner.toInt n.toInt)
  | .intRdiv n a m => cfg.overflowChecks = true ∧ m = .nearest ∧
      Representable L P (n.toInt : ℚ) ∧ value a ≠ 0 ∧
      ¬ NearestSafe L (n.toInt * 10 ^ P * 10 ^ P) a.inner.toInt
  | .recip a m => cfg.overflowChecks = true ∧ m = .nearest ∧ value a ≠ 0 ∧
      ¬ NearestSafe L (10 ^ P * 10 ^ P) a.inner.toInt
  | .integral a m => cfg.overflowChecks = true ∧
      (value a = minValue L P ∨ (m = .nearest ∧ FractionTooLarge a))
  | .floor a => (cfg.overflowChecks = true ∧ value a = minValue L P) ∨
      (value a ≠ minValue L P ∧ ¬ Representable L P (⌊value a⌋ : ℚ))
  | .ceil a => (cfg.overflowChecks = true ∧ value a = minValue L P) ∨
      (value a ≠ minValue L P ∧ ¬ Representable L P (⌈value a⌉ : ℚ))
  | .round a => (cfg.overflowChecks = true ∧ (value a = minValue L P ∨ FractionTooLarge a)) ∨
      (value a ≠ minValue L P ∧ ¬ FractionTooLarge a ∧
        ¬ Representable L P (nearest (value a) : ℚ))
  | .fromDecimal _ e => cfg.overflowChecks = true ∧ -(P : Int) ≤ e ∧ e ≤ 10 ∧
      ¬ (10 : Int) ^ (e + P).toNat ≤ rawMax L
  | .toDecimal _ maxExp => maxExp < -(P : Int)
  | .display a => PrintPanics cfg a
  | .serialize human a => human = true ∧ PrintPanics cfg a
  | .strOptionSerialize (some a) => PrintPanics cfg a
  | _ => False

/-- The calls that write outside a buffer. -/
def Call.Corrupts (cfg : Cfg) : Call L P → Prop
  | .display a => cfg.debugAssertions = false ∧ TextTooLong cfg a
  | .serialize human a => human = true ∧ cfg.debugAssertions = false ∧ TextTooLong cfg a
  | .strOptionSerialize (some a) => cfg.debugAssertions = false ∧ TextTooLong cfg a
  | _ => False

/-! ## Printing with and without debug assertions -/

/-- Undefined behaviour replaced by a panic. -/
def guarded {α : Type} : Res ε α → Res ε α
  | .fault .ub => .panic
  | r => r

theorem guarded_bind {α β : Type} (r : Res ε α) (f : α → Res ε β) :
    guarded (r >>= f) = guarded r >>= fun a => guarded (f a) := by
  cases r with
  | ok a => rfl
  | err e => rfl
  | fault k => cases k <;> rfl

theorem guarded_arith (cfg : Cfg) (w : Nat) (z : Int) :
    guarded (SInt.arith cfg w z : Res ε (BitVec w)) = SInt.arith cfg w z := by
  unfold SInt.arith
  split
  · rfl
  · split <;> rfl

theorem guarded_inBuffer (cfg : Cfg) (hd : cfg.debugAssertions = true) (t : List Char) :
    guarded (inBuffer { cfg with debugAssertions := false } t : Res ε _) = inBuffer cfg t := by
  unfold inBuffer
  simp only [hd]
  by_cases h : t.length ≤ (if cfg.i128 = true then 41 else 21)
  · rw [if_pos h, if_pos h]; rfl
  · rw [if_neg h, if_neg h]; rfl

theorem guarded_display {cfg : Cfg} (hv : Valid cfg L P) (hd : cfg.debugAssertions = true)
    (x : FP L P) :
    guarded (FP.display { cfg with debugAssertions := false } x : Res ε _) = FP.display cfg x := by
  have hv' : Valid { cfg with debugAssertions := false } L P := hv
  have ha : ∀ z, (SInt.arith { cfg with debugAssertions := false } L.bits z : Res ε _) =
      SInt.arith cfg L.bits z := fun z => rfl
  rw [display_eq hv', display_eq hv, ha, guarded_bind, guarded_arith]
  congr 1
  funext i
  rw [guarded_bind, guarded_inBuffer cfg hd]
  congr 1
  funext b
  unfold FP.stringifyFrac
  split
  · rw [guarded_bind]
    have hadd : ∀ u v : BitVec L.bits,
        (SInt.add { cfg with debugAssertions := false } u v : Res ε _) = SInt.add cfg u v :=
      fun u v => rfl
    rw [hadd]
    have : ∀ u v : BitVec L.bits, guarded (SInt.add cfg u v : Res ε _) = SInt.add cfg u v :=
      fun u v => guarded_arith cfg _ _
    rw [this]
    congr 1
    funext o
    simp only [pushStr_eq, guarded_inBuffer cfg hd]
  · simp only [push_eq, guarded_inBuffer cfg hd]

/-- Without a fault, what `display` returns is a text. -/
theorem display_outcome {cfg : Cfg} (hv : Valid cfg L P) (x : FP L P) :
    (cfg.overflowChecks = true ∧ PrintOverflows x ∧
      (FP.display cfg x : Res ε (List Char)) = .panic) ∨
    ∃ t, (FP.display cfg x : Res ε (List Char)) = inBuffer cfg t := by
  by_cases h : PrintOverflows x
  · cases ho : cfg.overflowChecks
    · rcases h with ⟨h1, h2⟩ | h
      · obtain ⟨l, -, -, h⟩ := C28_display_min_wrapped (ε := ε) hv ho h1 x h2
        exact .inr ⟨_, h⟩
      · obtain ⟨l, -, -, -, -, -, -, -, h⟩ := C28_display_fraction_wrapped (ε := ε) hv ho x h
        exact .inr ⟨_, h⟩
    · exact .inl ⟨rfl, h, C28_display_panics hv ho x h⟩
  · obtain ⟨l, -, -, h⟩ := C28_display_any (ε := ε) hv x h
    exact .inr ⟨_, h⟩

theorem display_ub_iff {cfg : Cfg} (hv : Valid cfg L P) (x : FP L P) :
    (FP.display cfg x : Res ε (List Char)) = .fault .ub ↔
      cfg.debugAssertions = false ∧ TextTooLong cfg x := by
  cases hd : cfg.debugAssertions
  · rw [C29_display_ub_iff hv hd]
    simp only [true_and]
    rfl
  · simp only [reduceCtorEq, false_and, iff_false]
    exact C29_display_no_ub_debug hv hd x

theorem display_panic_iff {cfg : Cfg} (hv : Valid cfg L P) (x : FP L P) :
    (FP.display cfg x : Res ε (List Char)) = .panic ↔ PrintPanics cfg x := by
  unfold PrintPanics
  constructor
  · intro h
    rcases display_outcome (ε := ε) hv x with ⟨h1, h2, -⟩ | ⟨t, ht⟩
    · exact .inl ⟨h1, h2⟩
    · have hl : ¬ t.length ≤ (if cfg.i128 = true then 41 else 21) := by
        intro hl
        rw [ht] at h
        unfold inBuffer at h
        rw [if_pos hl] at h
        cases h
      have hd : cfg.debugAssertions = true := by
        by_contra hd
        rw [ht] at h
        unfold inBuffer at h
        rw [if_neg hl, if_neg hd] at h
        cases h
      have hv' : Valid { cfg with debugAssertions := false } L P := hv
      have hg := guarded_display (ε := ε) hv hd x
      rcases display_outcome (ε := ε) hv' x with ⟨h1, h2, h3⟩ | ⟨u, hu⟩
      · exact .inl ⟨h1, h2⟩
      · right
        refine ⟨hd, ?_⟩
        rw [hu, guarded_inBuffer cfg hd, h] at hg
        have hl : ¬ u.length ≤ (if cfg.i128 = true then 41 else 21) := by
          intro hl
          unfold inBuffer at hg
          rw [if_pos hl] at hg
          cases hg
        have := (display_ub_iff (ε := ε) hv' x).1 (by
          rw [hu]; unfold inBuffer; rw [if_neg hl]; rfl)
        exact this.2
  · rintro (⟨h1, h2⟩ | ⟨h1, h2⟩)
    · exact C28_display_panics hv h1 x h2
    · have hv' : Valid { cfg with debugAssertions := false } L P := hv
      rw [← guarded_display hv h1, (display_ub_iff hv' x).2 ⟨rfl, h2⟩]
      rfl

/-! ## All calls -/

theorem faultOf_eq {α : Type} (r : Res ε α) (k : Fault) : faultOf r = some k ↔ r = .fault k := by
  cases r <;> simp [faultOf]

theorem faultOf_returns {α : Type} {r : Res ε α} (h : Returns r) : faultOf r = none := by
  cases r with
  | ok a => rfl
  | err e => rfl
  | fault k => exact absurd h (by simp [Returns])

theorem returns_of_ok {α : Type} {r : Res ε α} {a : α} (h : r = .ok a) : Returns r := by
  rw [h]; trivial

theorem returns_of_err {α : Type} {r : Res ε α} {e : ε} (h : r = .err e) : Returns r := by
  rw [h]; trivial

/-- A call that panics under the condition `p` and otherwise returns. -/
theorem fate_of {α : Type} {r : Res ε α} {p : Prop} (h1 : p → r = .panic) (h2 : ¬ p → Returns r) :
    (faultOf r = some .panic ↔ p) ∧ faultOf r ≠ some .ub ∧ faultOf r ≠ some .diverge := by
  by_cases hp : p
  · rw [h1 hp]; simp [faultOf, hp]
  · rw [faultOf_returns (h2 hp)]; simp [hp]

theorem fate_never {α : Type} {r : Res ε α} (h : Returns r) :
    (faultOf r = some .panic ↔ False) ∧ faultOf r ≠ some .ub ∧ faultOf r ≠ some .diverge :=
  fate_of (fun h => h.elim) fun _ => h

theorem rdiv_fate {cfg : Cfg} (hv : Valid cfg L P) (a b : FP L P) (m : RoundMode) :
    (faultOf (FP.rdiv cfg a b m) = some .panic ↔ (cfg.overflowChecks = true ∧ m = .nearest ∧
      value b ≠ 0 ∧ ¬ NearestSafe L (a.inner.toInt * 10 ^ P) b.inner.toInt)) ∧
    faultOf (FP.rdiv cfg a b m) ≠ some .ub ∧ faultOf (FP.rdiv cfg a b m) ≠ some .diverge := by
  apply fate_of
  · rintro ⟨h1, rfl, h3, h4⟩
    exact (C11_rdiv_nearest_panics_iff hv h1 a b h3).2 h4
  · intro h
    by_cases hb : value b = 0
    · exact returns_of_err ((C10_rdiv_zero_iff hv a b m).2 hb)
    by_cases hm : m = .nearest
    · subst hm
      by_cases hs : NearestSafe L (a.inner.toInt * 10 ^ P) b.inner.toInt
      · exact (C11_rdiv_nearest_partial hv a b hb hs).returns
      · exact (C11_rdiv_nearest_wrapped hv (by
          by_contra hc; exact h ⟨by simpa using hc, rfl, hb, hs⟩) a b hb hs).returns
    · exact (C10_rdiv_directed hv a b m hm hb).returns

theorem display_fate {cfg : Cfg} (hv : Valid cfg L P) (a : FP L P) :
    faultOf (FP.display cfg a : Res ε (List Char)) ≠ some .diverge := by
  rw [Ne, faultOf_eq]
  rcases display_outcome (ε := ε) hv a with ⟨-, -, h⟩ | ⟨t, h⟩
  · rw [h]; simp [Res.panic]
  · rw [h]; unfold inBuffer
    by_cases hl : t.length ≤ (if cfg.i128 = true then 41 else 21)
    · rw [if_pos hl]; simp
    · rw [if_neg hl]; split <;> simp [Res.panic]

theorem serialize_human {cfg : Cfg} (a : FP L P) :
    faultOf (FP.serialize cfg true a : Res ε _) = faultOf (FP.display cfg a : Res ε _) := by
  unfold FP.serialize FP.strSerialize
  rw [if_pos rfl]
  show faultOf (FP.display cfg a >>= fun buf => .ok (SerToken.str buf)) = _
  cases (FP.display cfg a : Res ε (List Char)) <;> rfl

theorem call_fate {cfg : Cfg} (hv : Valid cfg L P) (c : Call L P) :
    (c.fate cfg = some .panic ↔ c.Panics cfg) ∧ (c.fate cfg = some .ub ↔ c.Corrupts cfg) ∧
      c.fate cfg ≠ some .diverge := by
  have key : ∀ {o : Option Fault} {p : Prop}, ((o = some .panic ↔ p) ∧ o ≠ some .ub ∧
      o ≠ some .diverge) → (o = some .panic ↔ p) ∧ (o = some .ub ↔ False) ∧ o ≠ some .diverge :=
    fun h => ⟨h.1, iff_false_intro h.2.1, h.2.2⟩
  have ofOr : ∀ {ε α : Type} {r : Res ε α}, ((∃ x, r = .ok x) ∨ ∃ e, r = .err e) → Returns r := by
    rintro ε α r (⟨x, h⟩ | ⟨x, h⟩) <;> rw [h] <;> trivial
  have off : ∀ {q : Prop}, ¬ (cfg.overflowChecks = true ∧ q) → q → cfg.overflowChecks = false := by
    intro q h hq
    cases ho : cfg.overflowChecks
    · rfl
    · exact absurd ⟨ho, hq⟩ h
  cases c with
  | cadd a b => exact key (fate_never (C01_cadd_exact a b).returns)
  | csub a b => exact key (fate_never (C02_csub_exact a b).returns)
  | cmul a n => exact key (fate_never (C03_cmul_exact a n).returns)
  | intCmul n a => exact key (fate_never (C03_cmul_exact a n).returns)
  | cneg a => exact key (fate_never (C04_cneg_exact a).returns)
  | abs a => exact key (fate_never (C04_abs_exact a).returns)
  | rmul a b m =>
    refine key (fate_of ?_ ?_)
    · rintro ⟨h1, rfl, h3⟩
      exact (C07_rmul_panics_iff hv h1 a b).2 h3
    · intro h
      by_cases hs : m = .nearest ∧ ¬ RmulSafe L P (a.inner.toInt * b.inner.toInt)
      · obtain ⟨rfl, hs'⟩ := hs
        exact (C07_rmul_wrapped hv (off h ⟨rfl, hs'⟩) a b hs').returns
      · exact (C07_rmul_remainder_partial hv a b m fun hm => by
          by_contra hc; exact hs ⟨hm, hc⟩).returns
  | saturatingRmul a b m =>
    refine key (fate_of ?_ ?_)
    · rintro ⟨h1, rfl, h3⟩
      exact (C09_saturating_rmul_panics_iff hv h1 a b).2 h3
    · intro h
      by_cases hs : m = .nearest ∧ ¬ RmulSafe L P (a.inner.toInt * b.inner.toInt)
      · obtain ⟨rfl, hs'⟩ := hs
        obtain ⟨r, hr, -⟩ := C09_saturating_rmul_wrapped (ε := Empty) hv (off h ⟨rfl, hs'⟩) a b hs'
        exact returns_of_ok hr
      · obtain ⟨r, hr, -⟩ := C09_saturating_rmul_partial (ε := Empty) hv a b m fun hm => by
          by_contra hc; exact hs ⟨hm, hc⟩
        exact returns_of_ok hr
  | rdiv a b m => exact key (rdiv_fate hv a b m)
  | rdivInt a n m =>
    refine key (fate_of ?_ ?_)
    · rintro (⟨h1, h2⟩ | ⟨h1, rfl, h3, h4⟩)
      · have ha : a = FP.min := value_inj (((value_min_iff a).2 h1).trans C52_bounds_value.1.symm)
        have hn : n = BitVec.ofInt _ (-1) := by
          rw [← h2, BitVec.ofInt_toInt]
        rw [ha, hn]; exact C12_rdivInt_min_false cfg m
      · exact (C12_rdivInt_panics_iff cfg h1 a n .nearest h3).2 (.inr ⟨rfl, h4⟩)
    · intro h
      have h := not_or.1 h
      by_cases hn : n.toInt = 0
      · exact returns_of_err ((C12_rdivInt_zero_iff cfg a n m).2 hn)
      by_cases hs : m = .nearest ∧ ¬ IntNearestSafe L.bits a.inner.toInt n.toInt
      · obtain ⟨rfl, hs'⟩ := hs
        obtain ⟨r, hr, -⟩ := C12_rdivInt_wrapped cfg (off h.2 ⟨rfl, hn, hs'⟩) a n hn hs'
        exact returns_of_ok hr
      · refine (C12_rdivInt_partial cfg a n m hn h.1 fun hm h0 => ?_).returns
        have : IntNearestSafe L.bits a.inner.toInt n.toInt := by
          by_contra hc; exact hs ⟨hm, hc⟩
        exact this h0
  | intRdiv n a m =>
    refine key (fate_of ?_ ?_)
    · rintro ⟨h1, rfl, h2, h3, h4⟩
      exact (C13_intRdiv_nearest_panics_iff hv h1 n a h2 h3).2 h4
    · intro h
      by_cases hr : Representable L P (n.toInt : ℚ)
      · by_cases h0 : value a = 0
        · exact returns_of_err (C13_intRdiv_zero hv n a m hr h0)
        by_cases hm : m = .nearest
        · subst hm
          by_cases hs : NearestSafe L (n.toInt * 10 ^ P * 10 ^ P) a.inner.toInt
          · exact (C13_intRdiv_nearest_partial hv n a hr h0 hs).returns
          · exact (C13_intRdiv_nearest_wrapped hv (off h ⟨rfl, hr, h0, hs⟩) n a hr h0 hs).returns
        · exact (C13_intRdiv_directed hv n a m hm hr h0).returns
      · exact returns_of_err (C13_intRdiv_overflow hv n a m hr)
  | recip a m =>
    refine key (fate_of ?_ ?_)
    · rintro ⟨h1, rfl, h3, h4⟩
      exact (C15_recip_nearest_panics_iff hv h1 a h3).2 h4
    · intro h
      by_cases h0 : value a = 0
      · exact returns_of_err ((C15_recip_zero_iff hv a m).2 h0)
      by_cases hm : m = .nearest
      · subst hm
        by_cases hs : NearestSafe L (10 ^ P * 10 ^ P) a.inner.toInt
        · exact (C15_recip_nearest_partial hv a h0 hs).returns
        · exact (C15_recip_nearest_wrapped hv (off h ⟨rfl, h0, hs⟩) a h0 hs).returns
      · exact (C15_recip_directed hv a m hm h0).returns
  | halfSum a b m =>
    refine key (fate_never ?_)
    by_cases hm : m = .nearest
    · subst hm
      obtain ⟨r, hr, -⟩ := C16_half_sum_nearest (ε := Empty) cfg a b
      exact returns_of_ok hr
    · obtain ⟨r, hr, -⟩ := C16_half_sum_directed (ε := Empty) cfg a b m hm
      exact returns_of_ok hr
  | rsqrt a m =>
    refine key (fate_never ?_)
    by_cases h0 : 0 ≤ value a
    · obtain ⟨r, hr, -⟩ := C22_rsqrt hv a h0 m
      exact returns_of_ok hr
    · exact returns_of_err ((C22_rsqrt_domain hv a m).2 (not_le.1 h0))
  | integral a m =>
    refine key (fate_of ?_ ?_)
    · rintro ⟨h1, h2⟩
      exact (C18_integral_panics_iff hv h1 a m).2 h2
    · intro h
      by_cases hx : value a = minValue L P ∨ (m = .nearest ∧ FractionTooLarge a)
      · obtain ⟨r, hr, -⟩ := C18_integral_wrapped (ε := Empty) hv (off h hx) a m hx
        exact returns_of_ok hr
      · rw [not_or] at hx
        obtain ⟨r, hr, -⟩ := C18_integral_partial (ε := Empty) hv a m hx.1 fun hm =>
          not_lt.1 fun hl => hx.2 ⟨hm, hl⟩
        exact returns_of_ok hr
  | floor a =>
    refine key (fate_of ?_ ?_)
    · rintro (⟨h1, h2⟩ | ⟨h1, h2⟩)
      · rw [value_inj (h2.trans C52_bounds_value.1.symm)]
        exact (C19_floor_ceil_min hv h1).1
      · exact (C19_floor hv a h1).2 h2
    · intro h
      have h := not_or.1 h
      by_cases hm : value a = minValue L P
      · rw [value_inj (hm.trans C52_bounds_value.1.symm)]
        obtain ⟨r, -, hr, -⟩ := C19_min_wrapped (ε := Empty) hv (off h.1 hm)
        exact returns_of_ok hr
      · obtain ⟨r, hr, -⟩ := (C19_floor (ε := Empty) hv a hm).1 (by
          by_contra hc; exact h.2 ⟨hm, hc⟩)
        exact returns_of_ok hr
  | ceil a =>
    refine key (fate_of ?_ ?_)
    · rintro (⟨h1, h2⟩ | ⟨h1, h2⟩)
      · rw [value_inj (h2.trans C52_bounds_value.1.symm)]
        exact (C19_floor_ceil_min hv h1).2
      · exact (C19_ceil hv a h1).2 h2
    · intro h
      have h := not_or.1 h
      by_cases hm : value a = minValue L P
      · rw [value_inj (hm.trans C52_bounds_value.1.symm)]
        obtain ⟨r, -, -, hr, -⟩ := C19_min_wrapped (ε := Empty) hv (off h.1 hm)
        exact returns_of_ok hr
      · obtain ⟨r, hr, -⟩ := (C19_ceil (ε := Empty) hv a hm).1 (by
          by_contra hc; exact h.2 ⟨hm, hc⟩)
        exact returns_of_ok hr
  | round a =>
    refine key (fate_of ?_ ?_)
    · rintro (⟨h1, h2⟩ | ⟨h1, h2, h3⟩)
      · exact C19_round_panics hv h1 a h2
      · exact (C19_round_partial hv a h1 (not_lt.1 h2)).2 h3
    · intro h
      have h := not_or.1 h
      by_cases hx : value a = minValue L P ∨ FractionTooLarge a
      · obtain ⟨r, hr, -⟩ := C19_round_wrapped (ε := Empty) hv (off h.1 hx) a hx
        exact returns_of_ok hr
      · rw [not_or] at hx
        obtain ⟨r, hr, -⟩ := (C19_round_partial (ε := Empty) hv a hx.1 (not_lt.1 hx.2)).1 (by
          by_contra hc; exact h.2 ⟨hx.1, hx.2, hc⟩)
        exact returns_of_ok hr
  | nextPowerOfTen a =>
    refine key (fate_never ?_)
    by_cases h0 : 0 ≤ value a
    · obtain ⟨r, hr, -⟩ := C21_next_exists P (value a)
      exact (C21_next_power_nonneg a h0 r hr).returns
    · obtain ⟨r, hr, -⟩ := C21_next_exists P (-value a)
      exact (C21_next_power_neg a (not_le.1 h0) r hr).returns
  | tryFromInt n => exact key (fate_never (C27_try_from_int hv n).returns)
  | fromDecimal m e =>
    refine key (fate_of ?_ ?_)
    · rintro ⟨h1, h2, h3, h4⟩
      exact C24_from_decimal_panics cfg h1 m e ⟨h2, h3⟩ h4
    · intro h
      by_cases he : -(P : Int) ≤ e ∧ e ≤ 10
      · by_cases hp : (10 : Int) ^ (e + P).toNat ≤ rawMax L
        · exact (C24_from_decimal_partial cfg m e he hp).returns
        · exact (C24_from_decimal_wrapped cfg (off h ⟨he.1, he.2, hp⟩) m e he).returns
      · exact returns_of_err (C24_from_decimal_exponent cfg m e (by omega))
  | toDecimal a e =>
    refine key (fate_of (C25_to_decimal_panic_iff a e).2 fun h => ?_)
    obtain ⟨m, k, hr, -⟩ := C25_to_decimal (ε := Empty) a e (not_lt.1 h)
    exact returns_of_ok hr
  | fromStr s => exact key (fate_never (ofOr (C32_from_str_returns hv s)))
  | fromStrExact s => exact key (fate_never (ofOr (C31_from_str_exact_returns hv s)))
  | display a =>
    refine ⟨?_, ?_, display_fate hv a⟩
    · rw [Call.fate, faultOf_eq]; exact display_panic_iff hv a
    · rw [Call.fate, faultOf_eq]; exact display_ub_iff hv a
  | tryFromF64 f =>
    exact key (fate_never (C42_returns cfg L (valid_bounds hv FP.zero).2.2.2 f))
  | toF64 a =>
    obtain ⟨f, hf, -⟩ := C46_finite (ε := Empty) hv a
    exact key (fate_never (returns_of_ok hf))
  | serialize human a =>
    cases human with
    | false => exact ⟨by simp [Call.fate, Call.Panics, FP.serialize, FP.reprSerialize, faultOf],
        by simp [Call.fate, Call.Corrupts, FP.serialize, FP.reprSerialize, faultOf],
        by simp [Call.fate, FP.serialize, FP.reprSerialize, faultOf]⟩
    | true =>
      refine ⟨?_, ?_, ?_⟩
      · rw [Call.fate, serialize_human, faultOf_eq]
        exact (display_panic_iff hv a).trans (by simp [Call.Panics])
      · rw [Call.fate, serialize_human, faultOf_eq]
        exact (display_ub_iff hv a).trans (by simp [Call.Corrupts])
      · rw [Call.fate, serialize_human]; exact display_fate hv a
  | deserialize q h c => exact key (fate_never (C50_returns hv q h c))
  | reprDeserialize c => exact key (fate_never (C91_returns hv c).1)
  | reprOptionDeserialize c => exact key (fate_never (C91_returns (L := L) (P := P) hv c).2.2.2.1)
  | strDeserialize c => exact key (fate_never (C91_returns hv c).2.1)
  | strOptionDeserialize c => exact key (fate_never (C91_returns hv c).2.2.2.2.1)
  | floatDeserialize c => exact key (fate_never (C91_returns hv c).2.2.1)
  | floatOptionDeserialize c => exact key (fate_never (C91_returns hv c).2.2.2.2.2)
  | floatSerialize a =>
    obtain ⟨f, hf, -⟩ := C46_finite (ε := Empty) hv a
    refine key (fate_never ?_)
    unfold FP.floatSerialize
    rw [hf]; trivial
  | floatOptionSerialize a =>
    refine key (fate_never ?_)
    cases a with
    | none => trivial
    | some a =>
      obtain ⟨f, hf, -⟩ := C46_finite (ε := Empty) hv a
      unfold FP.floatOptionSerialize
      simp only [hf]; trivial
  | strOptionSerialize a =>
    cases a with
    | none => exact key (fate_never (r := (.ok .none : Res Empty SerToken)) trivial)
    | some a =>
      have e : (Call.strOptionSerialize (some a)).fate cfg =
          faultOf (FP.display cfg a : Res Empty (List Char)) := by
        show faultOf (FP.display cfg a >>= fun buf => .ok _) = _
        cases (FP.display cfg a : Res Empty (List Char)) <;> rfl
      rw [e]
      refine ⟨?_, ?_, display_fate hv a⟩
      · rw [faultOf_eq]; exact display_panic_iff hv a
      · rw [faultOf_eq]; exact display_ub_iff hv a
  | decode bs =>
    refine key (fate_never ?_)
    by_cases h : 8 * bs.length < L.bits
    · exact returns_of_err ((C48_decode_short bs).2 h)
    · have hb := bits_div L
      unfold FP.decode
      rw [decodeLe_spec _ _ (by omega), ok_bind]
      trivial
  | decodeCompact bs =>
    refine key (fate_never ?_)
    rcases C84_returns (L := L) (P := P) bs with ⟨e, h⟩ | ⟨x, rest, h⟩ <;> rw [h] <;> trivial

/-- C98: the calls that panic are those listed in `Call.Panics`, in every build. -/
theorem C98_panics_iff {cfg : Cfg} (hv : Valid cfg L P) (c : Call L P) :
    c.fate cfg = some .panic ↔ c.Panics cfg := (call_fate hv c).1

example := C98_panics_iff (cfg := debugCfg) (by decide) (.floor (FP.min : FP .i64 9))

/-- C98: the calls that write outside a buffer are those listed in `Call.Corrupts`. -/
theorem C98_corrupts_iff {cfg : Cfg} (hv : Valid cfg L P) (c : Call L P) :
    c.fate cfg = some .ub ↔ c.Corrupts cfg := (call_fate hv c).2.1

example := C98_corrupts_iff (cfg := releaseCfg) (by decide) (.display (FP.min : FP .i128 0))

/-- C98: every call comes to an end. -/
theorem C98_terminates {cfg : Cfg} (hv : Valid cfg L P) (c : Call L P) :
    c.fate cfg ≠ some .diverge := (call_fate hv c).2.2

example := C98_terminates (cfg := debugCfg) (by decide) (.rsqrt (⟨2000⟩ : FP .i64 3) .ceil)

/-- C98: a call in neither list returns a value or an error. -/
theorem C98_returns {cfg : Cfg} (hv : Valid cfg L P) (c : Call L P) (h1 : ¬ c.Panics cfg)
    (h2 : ¬ c.Corrupts cfg) : c.fate cfg = none := by
  obtain ⟨h3, h4, h5⟩ := call_fate hv c
  rcases h : c.fate cfg with _ | k
  · rfl
  · cases k with
    | panic => exact absurd (h3.1 h) h1
    | ub => exact absurd (h4.1 h) h2
    | diverge => exact absurd h h5

example := C98_returns (cfg := debugCfg) (by decide) (.cadd (⟨2000⟩ : FP .i64 3) FP.max)
  (by simp [Call.Panics]) (by simp [Call.Corrupts])

/-- C98 for a release build (no overflow checks, no debug assertions): what panics is the integer
division `MIN / -1`, `floor`, `ceil` and `round` of a number whose rounded value is out of range, and
`to_decimal` with a too small exponent. -/
theorem C98_release {cfg : Cfg} (hv : Valid cfg L P) (ho : cfg.overflowChecks = false)
    (hd : cfg.debugAssertions = false) (c : Call L P) :
    c.fate cfg = some .panic ↔
      (∃ a n m, c = .rdivInt a n m ∧ value a = minValue L P ∧ n.toInt = -1) ∨
      (∃ a, c = .floor a ∧ value a ≠ minValue L P ∧ ¬ Representable L P (⌊value a⌋ : ℚ)) ∨
      (∃ a, c = .ceil a ∧ value a ≠ minValue L P ∧ ¬ Representable L P (⌈value a⌉ : ℚ)) ∨
      (∃ a, c = .round a ∧ value a ≠ minValue L P ∧ ¬ FractionTooLarge a ∧
        ¬ Representable L P (nearest (value a) : ℚ)) ∨
      (∃ a e, c = .toDecimal a e ∧ e < -(P : Int)) := by
  rw [C98_panics_iff hv]
  cases c with
  | strOptionSerialize a => cases a <;> simp [Call.Panics, PrintPanics, ho, hd]
  | _ => simp [Call.Panics, PrintPanics, ho, hd, value_min_iff]

example := C98_release (cfg := releaseCfg) (by decide) rfl rfl (.floor (⟨-32767⟩ : FP .i16 4))

/-- C98: with at least one fractional digit, and not on `FixedPoint<i128, U38>`, printing,
multiplying and everything else but division, taking integer parts and decimal conversion always
returns, in every build. -/
theorem C98_ordinary {cfg : Cfg} (hv : Valid cfg L P) (hP : 1 ≤ P) (hL : ¬ (L = .i128 ∧ P = 38))
    (c : Call L P) (h : c.fate cfg ≠ none) :
    c.fate cfg = some .panic ∧
    ((∃ a b, c = .rdiv a b .nearest) ∨ (∃ a n m, c = .rdivInt a n m) ∨
      (∃ n a, c = .intRdiv n a .nearest) ∨ (∃ a, c = .recip a .nearest) ∨
      (∃ a m, c = .integral a m) ∨ (∃ a, c = .floor a) ∨ (∃ a, c = .ceil a) ∨
      (∃ a, c = .round a) ∨ (∃ m e, c = .fromDecimal m e ∧ 0 < e) ∨
      (∃ a e, c = .toDecimal a e ∧ e < -(P : Int))) := by
  have hP0 : P ≠ 0 := by omega
  have hno : ∀ a : FP L P, ¬ PrintOverflows a := fun a ha => by
    rcases C28_overflow_types hv a ha with ⟨h, -⟩ | h
    · exact hP0 h
    · exact hL h
  have htl : ∀ a : FP L P, ¬ TextTooLong cfg a := fun a ha => by
    rcases ha with ⟨h, -⟩ | ⟨h1, h2, -⟩
    · exact hP0 h
    · exact hL ⟨h1, h2⟩
  have hrs : ∀ n : Int, RmulSafe L P n := fun n => remainder_ok hv hL n
  have hco : ¬ c.Corrupts cfg := by
    cases c with
    | strOptionSerialize a => cases a <;> simp [Call.Corrupts, htl]
    | _ => simp [Call.Corrupts, htl]
  have hp : c.Panics cfg := by
    by_contra hp
    exact h (C98_returns hv c hp hco)
  refine ⟨(C98_panics_iff hv c).2 hp, ?_⟩
  cases c with
  | strOptionSerialize a => cases a <;> simp [Call.Panics, PrintPanics, hno, htl] at hp
  | fromDecimal m e =>
    have h10 : 0 < e := by
      by_contra hc
      obtain ⟨-, h1, -, h3⟩ := hp
      refine h3 (le_trans (pow_le_pow_right₀ (by norm_num) ?_) hv.1)
      omega
    simp [h10]
  | rdiv a b m => simp [hp.2.1]
  | intRdiv a b m => simp [hp.2.1]
  | recip a m => simp [hp.2.1]
  | toDecimal a e =>
    have : e < -(P : Int) := hp
    simp [this]
  | _ => simp [Call.Panics, PrintPanics, hno, htl, hrs] at hp <;> simp

example := C98_ordinary (cfg := debugCfg) (by decide) (by decide) (by decide) (Call.ceil (FP.max : FP .i16 4))
  (by decide +kernel)

example : (Call.rdivInt (FP.min : FP .i64 9) (-1) .floor).fate releaseCfg = some .panic ∧
    (Call.floor (FP.max : FP .i16 4)).fate releaseCfg = none ∧
    (Call.ceil (FP.max : FP .i16 4)).fate releaseCfg = some .panic ∧
    (Call.fromDecimal 1 10 : Call .i64 9).fate debugCfg = some .panic ∧
    (Call.fromDecimal 1 10 : Call .i64 9).fate releaseCfg = none ∧
    (Call.display (⟨-1000000000000000000⟩ : FP .i64 0)).fate ⟨false, false, true, false⟩ =
      some .ub ∧
    (Call.display (⟨-1000000000000000000⟩ : FP .i64 0)).fate ⟨true, true, true, false⟩ =
      some .panic ∧
    Valid debugCfg .i64 9 ∧ Valid ⟨false, false, true, false⟩ .i64 0 := by decide +kernel

end Fixnum
