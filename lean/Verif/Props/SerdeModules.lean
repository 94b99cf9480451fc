import Verif.Props.Serde
import Verif.Props.ToFloat

/-! # Property C91: the serde modules `repr`, `str`, `float` and their `_option` forms on any content -/

namespace Fixnum

open Res Spec

variable {L : Layout} {P : Nat} {ε : Type}

namespace Spec

/-- Text that lives in the input: a borrowed string, or borrowed bytes that are UTF-8. -/
def borrowedText : Content → Option (List Char)
  | .str true s => some s
  | .bytes true s => s
  | _ => none

/-- The content is a float, or an integer of at most 64 bits that `f` is nearest to. -/
inductive ReadsFloat : Content → BitVec 64 → Prop
  | f64 (f : BitVec 64) : ReadsFloat (.f64 f) f
  | f32 (f : BitVec 64) : ReadsFloat (.f32 f) f
  | int (w : Nat) (v : Int) (f : BitVec 64) (hw : w ≤ 64) (hf : f64Nearest f v) :
      ReadsFloat (.int w v) f
  | uint (w : Nat) (v : Nat) (f : BitVec 64) (hw : w ≤ 64) (hf : f64Nearest f v) :
      ReadsFloat (.uint w v) f

/-- The integer in a content is one of the stated width. -/
def InWidth : Content → Prop
  | .int w v => |v| ≤ 2 ^ w
  | .uint w v => v < 2 ^ w
  | _ => True

/-- What is left of an optional content: nothing for an absent value or unit, otherwise the content
without one marker. -/
def present : Content → Option Content
  | .none => none
  | .unit => none
  | .some c => some c
  | c => some c

/-- `opt` treats optional contents as `de` treats contents: absent is `None`, present is `Some` of
what `de` reads, and an error stays the same error. -/
def Lifts {α : Type} (opt : Content → Res DeErr (Option α)) (de : Content → Res DeErr α) : Prop :=
  ∀ c, (opt c = .ok none ↔ present c = none) ∧
    (∀ x, opt c = .ok (some x) ↔ ∃ c', present c = some c' ∧ de c' = .ok x) ∧
    (∀ e, opt c = .err e ↔ ∃ c', present c = some c' ∧ de c' = .err e)

end Spec

/-- C91: the `repr` module reads exactly the integers in range, of at most 64 bits or, for `i128`, of
any width, as the raw value. -/
theorem C91_repr (c : Content) (x : FP L P) :
    FP.reprDeserialize c = .ok x ↔
      ∃ n w, (c = .int w n ∨ ∃ m : Nat, c = .uint w m ∧ (m : Int) = n) ∧
        (L.bits ≤ 64 → w ≤ 64) ∧ value x = n / 10 ^ P :=
  C50_binary_iff (cfg := debugCfg) false c x

example : (FP.reprDeserialize (.uint 64 1500) : Res DeErr (FP .i32 3)) = .ok ⟨1500⟩ := by decide +kernel

/-- C91: the errors of the `repr` module.  An integer that does not fit the layout is an invalid
value, given by its digits; every other content, and with a layout of at most 64 bits every integer
of a wider type, is an invalid type, named as serde names it. -/
theorem C91_repr_errors :
    (∀ w v, (w ≤ 64 ∨ L = .i128) → (v < -2 ^ (L.bits - 1) ∨ 2 ^ (L.bits - 1) ≤ v) →
      (FP.reprDeserialize (.int w v) : Res DeErr (FP L P)) =
        .err (.invalidValue (.signed v) s!"i{L.bits}")) ∧
    (∀ w v, w ≤ 64 → 2 ^ (L.bits - 1) ≤ v →
      (FP.reprDeserialize (.uint w v) : Res DeErr (FP L P)) =
        .err (.invalidValue (.unsigned v) s!"i{L.bits}")) ∧
    (∀ w v, 64 < w → L = .i128 → 2 ^ 127 ≤ v →
      (FP.reprDeserialize (.uint w v) : Res DeErr (FP L P)) =
        .err (.invalidValue (.other "u128") "i128")) ∧
    (∀ c u, (∀ w v, c = .int w v → 64 < w ∧ L ≠ .i128) → (∀ w v, c = .uint w v → 64 < w ∧ L ≠ .i128) →
      Named c u → (FP.reprDeserialize c : Res DeErr (FP L P)) =
        .err (.invalidType u s!"i{L.bits}")) := by
  have hn : L ≠ .i128 → L.bits ≤ 64 := by cases L <;> decide
  have h128 : L = .i128 → ¬ L.bits ≤ 64 := by rintro rfl; decide
  have fits : ∀ v : Int, Fits L.bits v ↔ -2 ^ (L.bits - 1) ≤ v ∧ v < 2 ^ (L.bits - 1) := by
    intro v
    unfold Fits iMin iMax
    constructor <;> rintro ⟨h1, h2⟩ <;> exact ⟨h1, by omega⟩
  refine ⟨?_, ?_, ?_, ?_⟩
  · intro w v hw hv
    unfold FP.reprDeserialize deInt
    dsimp only
    rw [if_neg (by rintro ⟨a, b⟩; exact hw.elim (by omega) fun h => h128 h b),
      if_neg (by rw [fits]; omega), mapOk_err]
  · intro w v hw hv
    have : ¬ Fits L.bits (v : Int) := by
      rw [fits]
      rintro ⟨-, h⟩
      exact absurd (by exact_mod_cast h : v < 2 ^ (L.bits - 1)) (by omega)
    unfold FP.reprDeserialize deInt
    dsimp only
    rw [if_neg (by rintro ⟨a, b⟩; omega), if_neg this, if_pos hw, mapOk_err]
  · rintro w v hw rfl hv
    have : ¬ Fits Layout.i128.bits (v : Int) := by
      rw [fits]
      rintro ⟨-, h⟩
      exact absurd (by exact_mod_cast h : v < 2 ^ 127) (by omega)
    unfold FP.reprDeserialize deInt
    dsimp only
    rw [if_neg (by rintro ⟨a, b⟩; exact absurd b (by decide)), if_neg this, if_neg (by omega), mapOk_err]
    rfl
  · intro c u h1 h2 hu
    rw [← (named_iff c u).1 hu]
    unfold FP.reprDeserialize deInt
    cases c with
    | int w v =>
      dsimp only
      obtain ⟨a, b⟩ := h1 w v rfl
      rw [if_pos ⟨a, hn b⟩, mapOk_err]
    | uint w v =>
      dsimp only
      obtain ⟨a, b⟩ := h2 w v rfl
      rw [if_pos ⟨a, hn b⟩, mapOk_err]
    | _ => rfl

example : (FP.reprDeserialize (.int 64 40000) : Res DeErr (FP .i16 3)) =
    .err (.invalidValue (.signed 40000) "i16") :=
  C91_repr_errors.1 64 40000 (.inl (by decide)) (.inr (by decide))
example : (FP.reprDeserialize (.uint 8 200) : Res DeErr (FP .i16 3)) = .ok ⟨200⟩ ∧
    (FP.reprDeserialize (.uint 16 40000) : Res DeErr (FP .i16 3)) =
      .err (.invalidValue (.unsigned 40000) "i16") :=
  ⟨by decide +kernel, C91_repr_errors.2.1 16 40000 (by decide) (by decide)⟩
example : (FP.reprDeserialize (.uint 128 (2 ^ 127)) : Res DeErr (FP .i128 3)) =
    .err (.invalidValue (.other "u128") "i128") :=
  C91_repr_errors.2.2.1 128 _ (by decide) rfl (by decide)
example : (FP.reprDeserialize (.int 128 5) : Res DeErr (FP .i64 3)) =
    .err (.invalidType (.other "integer `5` as i128") "i64") :=
  C91_repr_errors.2.2.2 _ _ (by rintro w v ⟨⟩; decide) (by rintro w v ⟨⟩) (.signedWide _ _ (by decide))

/-- C91: the `str` module reads exactly the borrowed texts that parse, as what they parse to. -/
theorem C91_str {cfg : Cfg} (c : Content) (x : FP L P) :
    FP.strDeserialize cfg c = .ok x ↔ ∃ s, borrowedText c = some s ∧ FP.fromStr cfg s = .ok x := by
  unfold FP.strDeserialize deBorrowedStr FP.strParse borrowedText
  cases c with
  | str b s => cases b <;> simp [mapErr_ok_iff]
  | bytes b s => cases b <;> cases s <;> simp [mapErr_ok_iff]
  | _ => simp

example : (FP.strDeserialize debugCfg (.str true "-1.5".toList) : Res DeErr (FP .i32 3)) =
    .ok ⟨-1500⟩ := by decide +kernel

/-- C91: a borrowed text that does not parse is reported as an invalid value. -/
theorem C91_str_invalid {cfg : Cfg} (c : Content) (s : List Char) (hc : borrowedText c = some s)
    (he : ∃ e, (FP.fromStr cfg s : Res ConvErr (FP L P)) = .err e) :
    (FP.strDeserialize cfg c : Res DeErr (FP L P)) =
      .err (.invalidValue (.str s) "string containing a fixed-point number") := by
  obtain ⟨e, he⟩ := he
  have : deBorrowedStr c = .ok s := by
    revert hc
    unfold borrowedText deBorrowedStr
    cases c with
    | str b s => cases b <;> simp
    | bytes b s => cases b <;> cases s <;> simp
    | _ => simp
  unfold FP.strDeserialize FP.strParse
  rw [this, ok_bind, he, mapErr_err]

example := C91_str_invalid (cfg := debugCfg) (L := .i32) (P := 3) (.str true "1.".toList) "1.".toList
  rfl ⟨_, rfl⟩

/-- C91: anything else, in particular a temporary string, is an error whatever the text: bytes that
are not UTF-8 are an invalid value and all other contents an invalid type, named as serde names it. -/
theorem C91_str_other {cfg : Cfg} (c : Content) (hc : borrowedText c = none) :
    (c = .bytes true none → (FP.strDeserialize cfg c : Res DeErr (FP L P)) =
      .err (.invalidValue .bytes "a borrowed string")) ∧
    (c ≠ .bytes true none → ∀ u, Named c u → (FP.strDeserialize cfg c : Res DeErr (FP L P)) =
      .err (.invalidType u "a borrowed string")) := by
  suffices h : (c = .bytes true none → (FP.strDeserialize cfg c : Res DeErr (FP L P)) =
      .err (.invalidValue .bytes "a borrowed string")) ∧
      (c ≠ .bytes true none → (FP.strDeserialize cfg c : Res DeErr (FP L P)) =
        .err (.invalidType c.unexpected "a borrowed string")) from
    ⟨h.1, fun hn u hu => (named_iff c u).1 hu ▸ h.2 hn⟩
  revert hc
  unfold borrowedText FP.strDeserialize deBorrowedStr
  cases c with
  | str b s => cases b <;> simp
  | bytes b s => cases b <;> cases s <;> simp
  | _ => simp

example := (C91_str_other (cfg := debugCfg) (L := .i32) (P := 3) (.str false "1.5".toList) rfl).2
  (by simp) _ (.str _ _)

/-- Reading an `f64`. -/
theorem deF64_reads (c : Content) (hw : InWidth c) :
    (∃ f, deF64 c = .ok f ∧ ReadsFloat c f) ∨
      ((∀ f, ¬ ReadsFloat c f) ∧ deF64 c = .err (.invalidType c.unexpected "f64")) := by
  have big : ∀ z : Int, ∀ w ≤ 64, |z| ≤ 2 ^ w → |(z : ℚ)| < 2 ^ 1023 := by
    intro z w h hz
    have h1 : (|z| : ℤ) ≤ 2 ^ 64 := hz.trans (pow_le_pow_right₀ (by norm_num) h)
    have h2 : (|z| : ℚ) ≤ 2 ^ 64 := by exact_mod_cast h1
    exact lt_of_le_of_lt h2 (pow_lt_pow_right₀ (by norm_num) (by norm_num))
  cases c with
  | f64 f => exact .inl ⟨f, rfl, .f64 f⟩
  | f32 f => exact .inl ⟨f, rfl, .f32 f⟩
  | int w v =>
    by_cases h : w ≤ 64
    · refine .inl ⟨F64.ofInt v, by simp [deF64, h], .int w v _ h ?_⟩
      exact C46_model_rounding (big v w h hw)
    · refine .inr ⟨?_, by simp [deF64, h]⟩
      rintro f (_ | _ | ⟨_, _, _, hw, _⟩ | _)
      exact h hw
  | uint w v =>
    by_cases h : w ≤ 64
    · refine .inl ⟨F64.ofInt v, by simp [deF64, h], .uint w v _ h ?_⟩
      have hz : |(v : ℤ)| ≤ 2 ^ w := by
        rw [abs_of_nonneg (by positivity)]
        have : v < 2 ^ w := hw
        exact_mod_cast this.le
      have := C46_model_rounding (big v w h hz)
      simpa [F64.ofInt] using this
    · refine .inr ⟨?_, by simp [deF64, h]⟩
      rintro f (_ | _ | _ | ⟨_, _, _, hw, _⟩)
      exact h hw
  | _ =>
    refine .inr ⟨?_, by simp [deF64]⟩
    rintro f (_ | _)

/-- C91: the `float` module reads floats and integers of at most 64 bits: there is one `f64`, the
float itself or the one nearest to the integer, whose conversion by `TryFrom<f64>` decides.  It is an
invalid value when that fails, for instance for infinities and NaN.  Any other content is an invalid
type, named as serde names it. -/
theorem C91_float {cfg : Cfg} (c : Content) (hw : InWidth c) :
    (∃ f, ReadsFloat c f ∧
      (∀ x : FP L P, FP.floatDeserialize cfg c = .ok x ↔ FP.tryFromF64 cfg f = .ok x) ∧
      ((∃ e, (FP.tryFromF64 cfg f : Res ConvErr (FP L P)) = .err e) →
        (FP.floatDeserialize cfg c : Res DeErr (FP L P)) =
          .err (.invalidValue (.float f) "float containing a fixed-point number"))) ∨
    ((∀ f, ¬ ReadsFloat c f) ∧ ∀ u, Named c u →
      (FP.floatDeserialize cfg c : Res DeErr (FP L P)) = .err (.invalidType u "f64")) := by
  rcases deF64_reads c hw with ⟨f, h, hr⟩ | ⟨hn, h⟩
  · refine .inl ⟨f, hr, ?_, ?_⟩
    · intro x
      unfold FP.floatDeserialize FP.floatParse
      rw [h, ok_bind, mapErr_ok_iff]
    · rintro ⟨e, he⟩
      unfold FP.floatDeserialize FP.floatParse
      rw [h, ok_bind, he, mapErr_err]
  · refine .inr ⟨hn, fun u hu => ?_⟩
    rw [← (named_iff c u).1 hu]
    unfold FP.floatDeserialize
    rw [h]
    rfl

example := C91_float (cfg := debugCfg) (L := .i32) (P := 3) (.int 64 (-7)) (by simp [InWidth])

/-- Reading an optional content and converting what is there. -/
theorem lifts_of {α β : Type} {opt : Content → Res DeErr (Option α)} (de : Content → Res DeErr β)
    (k : β → Res DeErr α) (h0 : ∀ c, deOption de c = .ok none → opt c = .ok none)
    (h1 : ∀ c b, deOption de c = .ok (some b) → opt c = mapOk (k b) some)
    (h2 : ∀ c e, deOption de c = .err e → opt c = .err e)
    (h3 : ∀ c f, deOption de c = .fault f → opt c = .fault f) :
    Lifts opt (fun c => de c >>= k) := by
  intro c
  have h : ∀ c', deOption de c = mapOk (de c') some → opt c = mapOk (de c' >>= k) some := by
    intro c' e
    cases hd : de c' with
    | ok b => rw [hd, mapOk_ok] at e; rw [h1 c b e]; rfl
    | err x => rw [hd] at e; rw [h2 c x e]; rfl
    | fault f => rw [hd] at e; rw [h3 c f e]; rfl
  have key : ∀ c' : Content, opt c = mapOk (de c' >>= k) some →
      (opt c = .ok none ↔ (some c' : Option Content) = none) ∧
      (∀ x, opt c = .ok (some x) ↔ ∃ c'', some c' = some c'' ∧ (de c'' >>= k) = .ok x) ∧
      (∀ e, opt c = .err e ↔ ∃ c'', some c' = some c'' ∧ (de c'' >>= k) = .err e) := by
    intro c' r
    rw [r]
    cases hr : (de c' >>= k) <;> simp [hr]
  cases c with
  | none => simp [h0 .none rfl, present]
  | unit => simp [h0 .unit rfl, present]
  | some c => exact key c (h c rfl)
  | _ => exact key _ (h _ rfl)

/-- C91: the three `_option` modules: absent or unit is `None`; anything present is read as by the
plain module, with errors staying errors. -/
theorem C91_option {cfg : Cfg} :
    Lifts (FP.reprOptionDeserialize (L := L) (P := P)) FP.reprDeserialize ∧
    Lifts (FP.strOptionDeserialize (L := L) (P := P) cfg) (FP.strDeserialize cfg) ∧
    Lifts (FP.floatOptionDeserialize (L := L) (P := P) cfg) (FP.floatDeserialize cfg) := by
  refine ⟨?_, ?_, ?_⟩
  · have e : (FP.reprDeserialize : Content → Res DeErr (FP L P)) =
        fun c => deInt L.bits c >>= fun b => .ok (FP.fromBits b) := by
      funext c
      unfold FP.reprDeserialize
      cases deInt L.bits c <;> rfl
    rw [e]
    apply lifts_of <;> intro c <;> intros <;> unfold FP.reprOptionDeserialize <;> simp [*]
  · exact lifts_of deBorrowedStr (FP.strParse cfg)
      (fun c h => by unfold FP.strOptionDeserialize; rw [h]; rfl)
      (fun c b h => by unfold FP.strOptionDeserialize; rw [h]; rfl)
      (fun c e h => by unfold FP.strOptionDeserialize; rw [h]; rfl)
      (fun c f h => by unfold FP.strOptionDeserialize; rw [h]; rfl)
  · exact lifts_of deF64 (FP.floatParse cfg)
      (fun c h => by unfold FP.floatOptionDeserialize; rw [h]; rfl)
      (fun c b h => by unfold FP.floatOptionDeserialize; rw [h]; rfl)
      (fun c e h => by unfold FP.floatOptionDeserialize; rw [h]; rfl)
      (fun c f h => by unfold FP.floatOptionDeserialize; rw [h]; rfl)

example : (FP.strOptionDeserialize debugCfg (.some (.str true "-1.5".toList)) :
      Res DeErr (Option (FP .i32 3))) = .ok (some ⟨-1500⟩) ∧
    (FP.strOptionDeserialize debugCfg .unit : Res DeErr (Option (FP .i32 3))) = .ok none := by
  decide +kernel

/-- C91: infinities and NaN are rejected, as optional values too. -/
theorem C91_float_not_finite {cfg : Cfg} (f : BitVec 64)
    (hf : ¬ f64Finite f) (c : Content) (hc : c = .f64 f ∨ c = .f32 f) :
    (FP.floatDeserialize cfg c : Res DeErr (FP L P)) =
        .err (.invalidValue (.float f) "float containing a fixed-point number") ∧
      (FP.floatOptionDeserialize cfg c : Res DeErr (Option (FP L P))) =
        .err (.invalidValue (.float f) "float containing a fixed-point number") := by
  have h1 : (FP.floatDeserialize cfg c : Res DeErr (FP L P)) =
      .err (.invalidValue (.float f) "float containing a fixed-point number") := by
    unfold FP.floatDeserialize FP.floatParse
    rcases hc with rfl | rfl <;>
    · show mapErr _ _ = _
      rw [C40_not_finite cfg f hf, mapErr_err]
  refine ⟨h1, ((C91_option (cfg := cfg)).2.2 c).2.2 _ |>.2 ⟨c, ?_, h1⟩⟩
  rcases hc with rfl | rfl <;> rfl

example := C91_float_not_finite (cfg := debugCfg) (L := .i32) (P := 3) 0x7FF0000000000000
  (by decide +kernel) _ (.inl rfl)

/-- C91: whatever the content, the modules return. -/
theorem C91_returns {cfg : Cfg} (hv : Valid cfg L P) (c : Content) :
    Returns (FP.reprDeserialize c : Res DeErr (FP L P)) ∧
    Returns (FP.strDeserialize cfg c : Res DeErr (FP L P)) ∧
    Returns (FP.floatDeserialize cfg c : Res DeErr (FP L P)) ∧
    Returns (FP.reprOptionDeserialize c : Res DeErr (Option (FP L P))) ∧
    Returns (FP.strOptionDeserialize cfg c : Res DeErr (Option (FP L P))) ∧
    Returns (FP.floatOptionDeserialize cfg c : Res DeErr (Option (FP L P))) := by
  have hr : ∀ c, Returns (FP.reprDeserialize c : Res DeErr (FP L P)) :=
    fun c => C50_returns hv false false c
  have hs : ∀ c, Returns (FP.strDeserialize cfg c : Res DeErr (FP L P)) := by
    intro c
    cases hb : borrowedText c with
    | none =>
      have := C91_str_other (L := L) (P := P) (cfg := cfg) c hb
      by_cases h : c = .bytes true none
      · rw [this.1 h]; trivial
      · rw [this.2 h _ (unexpected_named c)]; trivial
    | some s =>
      rcases C32_from_str_returns (P := P) hv s with ⟨x, h⟩ | ⟨e, h⟩
      · rw [(C91_str c x).2 ⟨s, hb, h⟩]; trivial
      · rw [C91_str_invalid c s hb ⟨e, h⟩]; trivial
  have hf : ∀ c, Returns (FP.floatDeserialize cfg c : Res DeErr (FP L P)) := by
    intro c
    have : ∀ f, Returns (FP.floatParse cfg f : Res DeErr (FP L P)) := by
      intro f
      have := C42_returns cfg L (valid_bounds hv FP.zero).2.2.2 f
      unfold FP.floatParse
      cases h : (FP.tryFromF64 cfg f : Res ConvErr (FP L P)) with
      | fault g => rw [h] at this; exact this.elim
      | _ => trivial
    unfold FP.floatDeserialize
    cases h : deF64 c with
    | ok f => exact this f
    | err e => trivial
    | fault g =>
      revert h
      unfold deF64
      cases c <;> simp <;> split <;> simp
  have lift : ∀ (opt : Content → Res DeErr (Option (FP L P))) (de : Content → Res DeErr (FP L P)),
      Lifts opt de → (∀ c, Returns (de c)) → Returns (opt c) := by
    intro opt de h hd
    obtain ⟨h1, h2, h3⟩ := h c
    cases hp : present c with
    | none => rw [h1.2 hp]; trivial
    | some c' =>
      have := hd c'
      cases hc : de c' with
      | ok x => rw [(h2 x).2 ⟨c', hp, hc⟩]; trivial
      | err e => rw [(h3 e).2 ⟨c', hp, hc⟩]; trivial
      | fault f => rw [hc] at this; exact this.elim
  obtain ⟨l1, l2, l3⟩ := C91_option (L := L) (P := P) (cfg := cfg)
  exact ⟨hr c, hs c, hf c, lift _ _ l1 hr, lift _ _ l2 hs, lift _ _ l3 hf⟩

-- accepted and rejected contents of each module
example : borrowedText (.bytes true (some "1.5".toList)) = some "1.5".toList ∧
    (FP.strDeserialize debugCfg (.bytes true (some "1.5".toList)) : Res DeErr (FP .i32 3)) =
      .ok ⟨1500⟩ ∧
    (FP.strDeserialize debugCfg (.str true "1.".toList) : Res DeErr (FP .i32 3)) =
      .err (.invalidValue (.str "1.".toList) "string containing a fixed-point number") ∧
    borrowedText (.str false "1.5".toList) = none ∧
    (FP.strDeserialize debugCfg (.str false "1.5".toList) : Res DeErr (FP .i32 3)) =
      .err (.invalidType (.str "1.5".toList) "a borrowed string") ∧
    (FP.strOptionDeserialize debugCfg (.some (.str true "1.".toList)) :
      Res DeErr (Option (FP .i32 3))) =
      .err (.invalidValue (.str "1.".toList) "string containing a fixed-point number") := by
  decide +kernel
example : InWidth (.int 64 (-7)) ∧ ¬ f64Finite 0x7FF0000000000000 ∧
    (FP.floatDeserialize debugCfg (.int 64 (-7)) : Res DeErr (FP .i32 3)) = .ok ⟨-7000⟩ ∧
    (FP.floatDeserialize debugCfg (.f64 0x7FF0000000000000) : Res DeErr (FP .i32 3)) =
      .err (.invalidValue (.float 0x7FF0000000000000) "float containing a fixed-point number") ∧
    (FP.floatOptionDeserialize debugCfg .unit : Res DeErr (Option (FP .i32 3))) = .ok none ∧
    (FP.floatOptionDeserialize debugCfg (.some .none) : Res DeErr (Option (FP .i32 3))) =
      .err (.invalidType .option "f64") := by
  refine ⟨by simp [InWidth], ?_⟩
  decide +kernel

end Fixnum
