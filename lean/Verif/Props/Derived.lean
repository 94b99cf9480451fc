import Verif.Derived
import Verif.Props.Serde
import Verif.Props.Checked

/-! # Property C73: derived traits and the JSON schema -/

namespace Fixnum

open Res Spec

variable {L : Layout} {P : Nat} {ε : Type}

/-- C73: the default value is zero. -/
theorem C73_default : value (FP.default : FP L P) = 0 ∧ (FP.default : FP L P) = FP.zero := by
  have : (FP.default : FP L P) = FP.zero := rfl
  exact ⟨by rw [this]; exact C52_zero, this⟩

/-- C73: equal numbers, and only those, feed a hasher the same data; so maps keyed by numbers work
whatever the hash function. -/
theorem C73_hash (x y : FP L P) : FP.hash x = FP.hash y ↔ value x = value y := by
  have hp := ten_pow_ne P
  unfold FP.hash value
  rw [div_left_inj' hp]
  simp

/-- C73: and comparing equal is the same as hashing equal. -/
theorem C73_hash_cmp (x y : FP L P) : FP.cmp x y = .eq ↔ FP.hash x = FP.hash y := by
  rw [C54_cmp, C73_hash, compare_eq_iff_eq]

example : FP.hash (⟨-1500⟩ : FP .i32 3) = [⟨32, -1500⟩] ∧
    FP.cmp (⟨-1500⟩ : FP .i32 3) ⟨-1500⟩ = .eq ∧
    FP.hash (⟨-1500⟩ : FP .i32 3) ≠ FP.hash (⟨1500⟩ : FP .i32 3) := by decide +kernel

/-- C73: a rounding mode cast to an integer is the sign of the direction: `Ceil` is 1, `Nearest` 0,
`Floor` -1. -/
theorem C73_round_mode (m : RoundMode) :
    (m = .ceil → m.disc = 1) ∧ (m = .nearest → m.disc = 0) ∧ (m = .floor → m.disc = -1) := by
  cases m <;> decide

/-- C73: different errors have different texts. -/
theorem C73_error_texts (a b : ArithErr) (h : a.display = b.display) : a = b := by
  cases a <;> cases b <;> first | rfl | exact absurd h (by decide)

example : (∀ a b : ArithErr, a ≠ b → a.display ≠ b.display) :=
  fun a b h e => h (C73_error_texts a b e)

/-- C73: the text of an arithmetic error, by its kind. -/
theorem C73_error_text (e : ArithErr) :
    e.display = match e with
      | .overflow => "overflow"
      | .divisionByZero => "division by zero"
      | .domainViolation => "domain violation" := by
  cases e <;> rfl

/-- C73: the text of a conversion error is the message it was made with; different errors have
different texts. -/
theorem C73_convert_error_text (a b : ConvErr) :
    a = ⟨a.display⟩ ∧ (a.display = b.display ↔ a = b) := by
  obtain ⟨r⟩ := a
  obtain ⟨s⟩ := b
  refine ⟨rfl, ?_⟩
  rw [ConvErr.mk.injEq]
  exact Iff.rfl

example : ArithErr.divisionByZero.display = "division by zero" ∧
    (match (FP.fromStr debugCfg "1.x".toList : Res ConvErr (FP .i64 9)) with
      | .err e => e.display
      | _ => "") = "can't parse fractional part: must contain digits only" := by decide +kernel

/-- Specification: the JSON type of a token as `serde_json` writes it.  Integers and finite floats are
numbers, `None` and non-finite floats are `null`, `Some` is transparent (serde_json documentation). -/
inductive Spec.JsonTypeOf : SerToken → JsonType → Prop
  | str (s : List Char) : JsonTypeOf (.str s) .string
  | int (w : Nat) (v : Int) : JsonTypeOf (.int w v) .integer
  | finite (b : BitVec 64) : b.toNat / 2 ^ 52 % 2 ^ 11 ≠ 2047 → JsonTypeOf (.f64 b) .number
  | infinite (b : BitVec 64) : b.toNat / 2 ^ 52 % 2 ^ 11 = 2047 → JsonTypeOf (.f64 b) .null
  | none : JsonTypeOf .none .null
  | some (t : SerToken) (ty : JsonType) : JsonTypeOf t ty → JsonTypeOf (.some t) ty

/-- C73: whatever `Serialize` writes in a human-readable format is a string, which is the type the JSON
schema declares, in every build, also for the types on which the text is wrong. -/
theorem C73_schema (cfg : Cfg) (x : FP L P) (t : SerToken)
    (h : (FP.serialize cfg true x : Res ε _) = .ok t) :
    (∃ s, t = .str s) ∧ ∀ ty, JsonTypeOf t ty ↔ FP.jsonSchema.instanceType = some ty := by
  have hs : ∃ s, t = .str s := by
    unfold FP.serialize FP.strSerialize at h
    rw [if_pos rfl] at h
    cases hs : (FP.stringify cfg x [] : Res ε StrBuf) with
    | ok s => rw [hs, ok_bind] at h; cases h; exact ⟨_, rfl⟩
    | err e => rw [hs] at h; cases h
    | fault k => rw [hs] at h; cases h
  refine ⟨hs, fun ty => ?_⟩
  obtain ⟨s, rfl⟩ := hs
  constructor
  · intro h; cases h; rfl
  · intro h; cases h; exact .str s

example := C73_schema (ε := Unit) debugCfg (⟨-10042⟩ : FP .i64 3) (.str "-10.042".toList) (by decide +kernel)

example : (FP.serialize debugCfg true (⟨-10042⟩ : FP .i32 3) : Res Unit _) =
    .ok (.str "-10.042".toList) ∧ JsonTypeOf (.str "-10.042".toList) .string :=
  ⟨by decide +kernel, .str _⟩

/-- Outside C73: fields serialised with the modules `repr` and `float` are JSON numbers, which the
schema of the type does not describe. -/
theorem C73_schema_outside_domain :
    (FP.reprSerialize (⟨-10042⟩ : FP .i32 3) : Res Unit _) = .ok (.int 32 (-10042)) ∧
    ∀ ty, JsonTypeOf (.int 32 (-10042)) ty → FP.jsonSchema.instanceType ≠ some ty := by
  refine ⟨by decide +kernel, fun ty h => ?_⟩
  cases h; decide

/-! ## C54: provided methods of the derived order -/

/-- C54: `max` and `min` are those of the denoted numbers. -/
theorem C54_max_min (a b : FP L P) :
    value (FP.ordMax a b) = max (value a) (value b) ∧
    value (FP.ordMin a b) = min (value a) (value b) := by
  unfold FP.ordMax FP.ordMin
  simp only [C54_cmp, compare_lt_iff_lt]
  by_cases h : value b < value a
  · rw [if_pos h, if_pos h, max_eq_left h.le, min_eq_right h.le]; exact ⟨rfl, rfl⟩
  · rw [if_neg h, if_neg h, max_eq_right (not_lt.1 h), min_eq_left (not_lt.1 h)]; exact ⟨rfl, rfl⟩

example : FP.ordMax (⟨-5⟩ : FP .i16 2) ⟨3⟩ = ⟨3⟩ ∧ FP.ordMin (⟨-5⟩ : FP .i16 2) ⟨3⟩ = ⟨-5⟩ := by
  decide +kernel

/-- C54: `clamp` gives the number of the interval closest to `x`, and panics exactly when the interval
is empty. -/
theorem C54_clamp (x lo hi : FP L P) :
    (value lo ≤ value hi → ∃ r, (FP.ordClamp x lo hi : Res ε (FP L P)) = .ok r ∧
      value r = max (value lo) (min (value hi) (value x))) ∧
    (value hi < value lo → (FP.ordClamp x lo hi : Res ε (FP L P)) = .panic) := by
  unfold FP.ordClamp rustAssert
  simp only [C54_cmp, compare_lt_iff_lt, compare_gt_iff_gt, ne_eq, gt_iff_lt]
  constructor
  · intro h
    rw [decide_eq_true (not_lt.2 h)]
    refine ⟨_, rfl, ?_⟩
    split
    · rename_i h1
      rw [max_eq_left]
      exact (min_le_right _ _).trans h1.le
    · rename_i h1
      split
      · rename_i h2
        rw [min_eq_left h2.le, max_eq_right h]
      · rename_i h2
        rw [min_eq_right (not_lt.1 h2), max_eq_right (not_lt.1 h1)]
  · intro h
    rw [decide_eq_false (not_not.2 h)]
    rfl

example : FP.ordMax (⟨-3⟩ : FP .i16 2) ⟨2⟩ = ⟨2⟩ ∧ FP.ordMin (⟨-3⟩ : FP .i16 2) ⟨2⟩ = ⟨-3⟩ ∧
    (FP.ordClamp (⟨-3⟩ : FP .i16 2) ⟨1⟩ ⟨2⟩ : Res Unit _) = .ok ⟨1⟩ ∧
    (FP.ordClamp (⟨-3⟩ : FP .i16 2) ⟨3⟩ ⟨2⟩ : Res Unit _) = .panic := by decide

end Fixnum
