import Verif.Serde
import Verif.Props.Text
import Verif.Props.Float
import Verif.Props.RoundTrip
import Verif.Props.Rounding

/-! # Properties C49, C50 and C61: serde -/

namespace Fixnum

open Res Spec

variable {L : Layout} {P : Nat} {ε : Type}

namespace Spec

/-- Reading back: the contents a format may deliver for a token it was given.  Strings come borrowed
or, unless the format always borrows, as temporary strings; an integer comes with its own width or
any other width of at most 64 bits, signed or unsigned, that can hold it; an absent value may come as
a unit; a present one with or without its marker. -/
inductive Delivers (borrows : Bool) : SerToken → Content → Prop
  | str (s : List Char) (b : Bool) (h : borrows = true → b = true) :
      Delivers borrows (.str s) (.str b s)
  | int (w : Nat) (v : Int) : Delivers borrows (.int w v) (.int w v)
  | signed (w w' : Nat) (v : Int) (h : w' ≤ 64) : Delivers borrows (.int w v) (.int w' v)
  | unsigned (w w' : Nat) (v : Int) (m : Nat) (h : w' ≤ 64) (hm : (m : Int) = v) :
      Delivers borrows (.int w v) (.uint w' m)
  | f64 (f : BitVec 64) : Delivers borrows (.f64 f) (.f64 f)
  | none : Delivers borrows .none .none
  | unit : Delivers borrows .none .unit
  | some (t : SerToken) (c : Content) (h : Delivers borrows t c) :
      Delivers borrows (.some t) (.some c)
  | bare (t : SerToken) (c : Content) (h : Delivers borrows t c) : Delivers borrows (.some t) c

/-- The text in a string, character, or (with quick-xml) in a map starting with the key `$value`. -/
def contentText (quickXml : Bool) : Content → Option (List Char)
  | .str _ s => some s
  | .char ch => some [ch]
  | .map ((k, v) :: _) =>
    if quickXml ∧ key k = some "$value".toList then key v else none
  | _ => none
where
  /-- Text in a key or value: strings, characters, and byte strings that are UTF-8. -/
  key : Content → Option (List Char)
    | .str _ s => some s
    | .char ch => some [ch]
    | .bytes _ s => s
    | _ => none

/-- The integer a content is. -/
def contentInt : Content → Option Int
  | .int _ v => some v
  | .uint _ v => some v
  | _ => none

/-- The float a content is. -/
def contentFloat : Content → Option (BitVec 64)
  | .f64 f => some f
  | .f32 f => some f
  | _ => none

end Spec

/-! ## C49 -/

theorem deInt_ok (x : FP L P) (c : Content) (b : Bool)
    (h : Delivers b (.int L.bits x.inner.toInt) c) : deInt L.bits c = .ok x.inner := by
  have hf := toInt_fits x.inner
  have e : BitVec.ofInt L.bits x.inner.toInt = x.inner := BitVec.ofInt_toInt
  cases h with
  | int =>
    unfold deInt
    dsimp only
    rw [if_neg (by omega), if_pos hf, e]
  | signed _ w' _ h =>
    unfold deInt
    dsimp only
    rw [if_neg (by omega), if_pos hf, e]
  | unsigned _ w' _ v h hv =>
    unfold deInt
    dsimp only
    rw [if_neg (by omega), if_pos (by rwa [hv]), hv, e]

/-- C49, binary formats and the `repr` module: the token is the raw integer, and reading it back
gives the number, however the format delivers the integer. -/
theorem C49_binary {cfg cfg' : Cfg} (x : FP L P) :
    ∃ n : Int, (FP.serialize cfg false x : Res ε _) = .ok (.int L.bits n) ∧
      (FP.reprSerialize x : Res ε _) = .ok (.int L.bits n) ∧ value x = n / 10 ^ P ∧
      ∀ b q c, Delivers b (.int L.bits n) c →
        FP.deserialize cfg' q false c = .ok x ∧ FP.reprDeserialize c = .ok x := by
  refine ⟨x.inner.toInt, rfl, rfl, rfl, fun b q c h => ?_⟩
  have : FP.reprDeserialize c = .ok x := by
    unfold FP.reprDeserialize
    rw [deInt_ok x c b h, mapOk_ok]
    rfl
  exact ⟨this, this⟩

example := (C49_binary (ε := Unit) (cfg := debugCfg) (cfg' := releaseCfg) (⟨-1500⟩ : FP .i32 3))
example : Delivers true (.int 32 (-1500)) (.int 64 (-1500)) ∧
    (FP.deserialize releaseCfg false false (.int 64 (-1500)) : Res DeErr (FP .i32 3)) = .ok ⟨-1500⟩ :=
  ⟨.signed _ _ _ (by decide), by decide +kernel⟩

theorem deOption_some {α : Type} (de : Content → Res DeErr α) {b : Bool} {t : SerToken}
    {c : Content} {a : α} (h : Delivers b (.some t) c)
    (hd : ∀ c, Delivers b t c → de c = .ok a)
    (hn : de .none ≠ .ok a) (hu : de .unit ≠ .ok a) (hs : ∀ c, de (.some c) ≠ .ok a) :
    deOption de c = .ok (some a) := by
  cases h with
  | some _ c h =>
    unfold deOption
    dsimp only
    rw [hd c h, mapOk_ok]
  | bare _ _ h =>
    have h1 := hd c h
    cases c with
    | none => exact absurd h1 hn
    | unit => exact absurd h1 hu
    | some c => exact absurd h1 (hs c)
    | _ => unfold deOption; dsimp only; rw [h1, mapOk_ok]

/-- C49, `repr_option`. -/
theorem C49_repr_option (o : Option (FP L P)) :
    ∃ t, (FP.reprOptionSerialize o : Res ε _) = .ok t ∧
      ∀ b c, Delivers b t c → FP.reprOptionDeserialize c = .ok o := by
  cases o with
  | none =>
    refine ⟨_, rfl, fun b c h => ?_⟩
    cases h <;> rfl
  | some x =>
    refine ⟨_, rfl, fun b c h => ?_⟩
    unfold FP.reprOptionDeserialize
    rw [deOption_some (deInt L.bits) (a := x.inner) h (fun c hc => deInt_ok x c b hc)
      (by unfold deInt; simp) (by unfold deInt; simp) (by intro c; unfold deInt; simp), mapOk_ok]
    rfl

example : Delivers true (.some (.int 32 7)) (.some (.uint 8 7)) ∧
    (FP.reprOptionDeserialize (.some (.uint 8 7)) : Res DeErr (Option (FP .i32 3))) = .ok (some ⟨7⟩) :=
  ⟨.some _ _ (.unsigned _ _ _ 7 (by decide) rfl), by decide +kernel⟩

/-- C49, human-readable formats, except for `i128` with 38 digits: the token is a string, and
reading it back, borrowed or not, gives the number. -/
theorem C49_human_partial {cfg : Cfg} (hv : Valid cfg L P) (hP : 1 ≤ P)
    (hL : ¬ (L = .i128 ∧ P = 38)) (x : FP L P) :
    ∃ s, (FP.serialize cfg true x : Res ε _) = .ok (.str s) ∧
      (FP.display cfg x : Res ε _) = .ok s ∧
      ∀ b q c, Delivers b (.str s) c → FP.deserialize cfg q true c = .ok x := by
  obtain ⟨s, h1, h2, -⟩ := C30_round_trip_types (ε := ε) hv hP hL x
  refine ⟨s, ?_, h1, fun b q c h => ?_⟩
  · unfold FP.serialize FP.strSerialize
    unfold FP.display at h1
    rw [if_pos rfl, h1, ok_bind]
  · cases h
    unfold FP.deserialize visitAny visitStr
    rw [if_pos rfl]
    dsimp only
    rw [h2, mapErr_ok]

example := C49_human_partial (ε := Unit) (cfg := debugCfg) (by decide) (by decide) (by decide)
  (⟨-10042⟩ : FP .i32 3)

/-- C49, the `str` module, for formats that deliver strings borrowed from their input. -/
theorem C49_str_partial {cfg : Cfg} (hv : Valid cfg L P) (hP : 1 ≤ P)
    (hL : ¬ (L = .i128 ∧ P = 38)) (x : FP L P) :
    ∃ t, (FP.strSerialize cfg x : Res ε _) = .ok t ∧
      ∀ c, Delivers true t c → FP.strDeserialize cfg c = .ok x := by
  obtain ⟨s, h1, h2, -⟩ := C30_round_trip_types (ε := ε) hv hP hL x
  refine ⟨.str s, ?_, fun c h => ?_⟩
  · unfold FP.strSerialize
    unfold FP.display at h1
    rw [h1, ok_bind]
  · cases h with
    | str _ b hb =>
      rw [hb rfl]
      unfold FP.strDeserialize deBorrowedStr FP.strParse
      dsimp only
      rw [ok_bind, h2, mapErr_ok]

example := C49_str_partial (ε := Unit) (cfg := debugCfg) (by decide) (by decide) (by decide)
  (⟨-10042⟩ : FP .i32 3)

/-- C49, the `str_option` module, for formats that deliver strings borrowed from their input. -/
theorem C49_str_option_partial {cfg : Cfg} (hv : Valid cfg L P) (hP : 1 ≤ P)
    (hL : ¬ (L = .i128 ∧ P = 38)) (o : Option (FP L P)) :
    ∃ t, (FP.strOptionSerialize cfg o : Res ε _) = .ok t ∧
      ∀ c, Delivers true t c → FP.strOptionDeserialize cfg c = .ok o := by
  cases o with
  | none =>
    refine ⟨_, rfl, fun c h => ?_⟩
    cases h <;> rfl
  | some x =>
    obtain ⟨s, h1, h2, -⟩ := C30_round_trip_types (ε := ε) hv hP hL x
    refine ⟨.some (.str s), ?_, fun c h => ?_⟩
    · unfold FP.strOptionSerialize
      unfold FP.display at h1
      dsimp only
      rw [h1, ok_bind]
    · unfold FP.strOptionDeserialize
      rw [deOption_some deBorrowedStr (a := s) h
        (fun c hc => by
          cases hc with
          | str _ b hb => rw [hb rfl]; rfl)
        (by unfold deBorrowedStr; simp) (by unfold deBorrowedStr; simp)
        (by intro c; unfold deBorrowedStr; simp), ok_bind]
      dsimp only
      unfold FP.strParse
      rw [h2, mapErr_ok, mapOk_ok]

example := C49_str_option_partial (ε := Unit) (cfg := debugCfg) (by decide) (by decide) (by decide)
  (some (⟨-10042⟩ : FP .i32 3))

/-- C49 fails for the `str` module when the format delivers temporary strings: `<&str>` accepts
borrowed text only.  (For example escaped JSON strings, or any JSON read from an `io::Read`.) -/
theorem C49_str_false :
    (FP.strSerialize debugCfg (⟨10042⟩ : FP .i64 3) : Res Unit _) = .ok (.str "10.042".toList) ∧
    Delivers false (.str "10.042".toList) (.str false "10.042".toList) ∧
    (FP.strDeserialize debugCfg (.str false "10.042".toList) : Res DeErr (FP .i64 3)) =
      .err (.invalidType (.str "10.042".toList) "a borrowed string") ∧
    (FP.strOptionDeserialize debugCfg (.some (.str false "10.042".toList)) :
      Res DeErr (Option (FP .i64 3))) =
      .err (.invalidType (.str "10.042".toList) "a borrowed string") :=
  ⟨by decide +kernel, .str _ _ (by simp), by decide +kernel, by decide +kernel⟩

/-- C49 fails for `i128` with 38 digits: serialising panics, or without overflow checks writes a text
that reads back as another number. -/
theorem C49_human_false :
    (FP.serialize debugCfg true (⟨90000000000000000000000000000000000000⟩ : FP .i128 38) :
      Res Unit _) = .panic ∧
    (FP.serialize releaseCfg true (⟨90000000000000000000000000000000000000⟩ : FP .i128 38) :
      Res Unit _) = .ok (.str "0.150282366920938463463374607431768211456".toList) ∧
    (FP.deserialize releaseCfg false true
      (.str true "0.150282366920938463463374607431768211456".toList) : Res DeErr (FP .i128 38)) ≠
      .ok ⟨90000000000000000000000000000000000000⟩ := by decide +kernel

-- a value and the ways it comes back
example : (FP.serialize debugCfg true (⟨-10042⟩ : FP .i32 3) : Res Unit _) =
      .ok (.str "-10.042".toList) ∧
    (FP.serialize debugCfg false (⟨-10042⟩ : FP .i32 3) : Res Unit _) = .ok (.int 32 (-10042)) ∧
    (FP.deserialize debugCfg false true (.str false "-10.042".toList) : Res DeErr (FP .i32 3)) =
      .ok ⟨-10042⟩ ∧
    (FP.deserialize debugCfg false false (.int 64 (-10042)) : Res DeErr (FP .i32 3)) =
      .ok ⟨-10042⟩ := by decide +kernel
example : Valid debugCfg .i32 3 := by decide +kernel

/-! ## C50 -/

/-- C50: a string is parsed by `from_str`. -/
theorem C50_string {cfg : Cfg} (b q : Bool) (s : List Char) (x : FP L P) :
    (FP.deserialize cfg q true (.str b s) = .ok x ↔ FP.fromStr cfg s = .ok x) ∧
    ((∃ e, (FP.fromStr cfg s : Res ConvErr (FP L P)) = .err e) →
      (FP.deserialize cfg q true (.str b s) : Res DeErr (FP L P)) =
        .err (.invalidValue (.str s) "number or string containing a fixed-point number")) := by
  unfold FP.deserialize visitAny visitStr
  rw [if_pos rfl]
  dsimp only
  refine ⟨?_, ?_⟩
  · cases (FP.fromStr cfg s : Res ConvErr (FP L P)) <;> simp
  · rintro ⟨e, h⟩
    rw [h, mapErr_err]
    rfl

example : (FP.deserialize debugCfg false true (.str false "-1.5".toList) : Res DeErr (FP .i32 3)) =
      .ok ⟨-1500⟩ ∧
    (FP.deserialize debugCfg false true (.str false "1.".toList) : Res DeErr (FP .i32 3)) =
      .err (.invalidValue (.str "1.".toList) "number or string containing a fixed-point number") := by
  decide +kernel

/-- The integer contents. -/
inductive IsInteger : Content → Int → Prop
  | int (w : Nat) (v : Int) : IsInteger (.int w v) v
  | uint (w : Nat) (v : Nat) : IsInteger (.uint w v) v

/-- C50: an integer of any width gives exactly that number if it is representable and is an
invalid value otherwise. -/
theorem C50_integer {cfg : Cfg} (hv : Valid cfg L P) (q : Bool) (c : Content) (n : Int)
    (hc : IsInteger c n) :
    (Representable L P n → ∃ x : FP L P, FP.deserialize cfg q true c = .ok x ∧ value x = n) ∧
    (¬ Representable L P n → ∃ u, (FP.deserialize cfg q true c : Res DeErr (FP L P)) =
      .err (.invalidValue u "number or string containing a fixed-point number")) := by
  obtain ⟨h1, h2⟩ := C27_try_from_int (L := L) (P := P) hv n
  cases hc with
  | int w v =>
    unfold FP.deserialize visitAny visitI64 visitI128
    rw [if_pos rfl]
    dsimp only
    refine ⟨fun h => ?_, fun h => ?_⟩
    · obtain ⟨x, e, hx⟩ := h1 h
      exact ⟨x, by rw [e, mapErr_ok, mapErr_ok]; split <;> rfl, hx⟩
    · rw [h2 h, mapErr_err, mapErr_err]
      split <;> exact ⟨_, rfl⟩
  | uint w v =>
    unfold FP.deserialize visitAny visitU64 visitU128
    rw [if_pos rfl]
    dsimp only
    refine ⟨fun h => ?_, fun h => ?_⟩
    · obtain ⟨x, e, hx⟩ := h1 h
      exact ⟨x, by rw [e, mapErr_ok, mapErr_ok]; split <;> rfl, hx⟩
    · rw [h2 h, mapErr_err, mapErr_err]
      split <;> exact ⟨_, rfl⟩

example := C50_integer (cfg := debugCfg) (L := .i32) (P := 3) (by decide) false (.int 64 (-7)) (-7)
  (.int ..)

/-- C50: a float is converted by `TryFrom<f64>`. -/
theorem C50_float {cfg : Cfg} (q : Bool) (f : BitVec 64) (x : FP L P) :
    (FP.deserialize cfg q true (.f64 f) = .ok x ↔ FP.tryFromF64 cfg f = .ok x) ∧
    ((∃ e, (FP.tryFromF64 cfg f : Res ConvErr (FP L P)) = .err e) →
      (FP.deserialize cfg q true (.f64 f) : Res DeErr (FP L P)) =
        .err (.invalidValue (.float f) "number or string containing a fixed-point number")) := by
  unfold FP.deserialize visitAny visitF64
  rw [if_pos rfl]
  dsimp only
  refine ⟨?_, ?_⟩
  · cases (FP.tryFromF64 cfg f : Res ConvErr (FP L P)) <;> simp
  · rintro ⟨e, h⟩
    rw [h, mapErr_err]
    rfl

example : (FP.deserialize debugCfg false true (.f64 0x3FF8000000000000) : Res DeErr (FP .i32 3)) =
      .ok ⟨1500⟩ ∧
    (FP.deserialize debugCfg false true (.f64 0x7FF0000000000000) : Res DeErr (FP .i32 3)) =
      .err (.invalidValue (.float 0x7FF0000000000000)
        "number or string containing a fixed-point number") := by
  decide +kernel

theorem deString_ok (c : Content) (s : List Char) :
    deString c = .ok s ↔ contentText.key c = some s := by
  cases c with
  | str b s' => simp [deString, contentText.key]
  | char ch => simp [deString, contentText.key]
  | bytes b o => cases o <;> simp [deString, contentText.key]
  | _ => simp [deString, contentText.key]

theorem deString_fault (c : Content) (f : Fault) : deString c ≠ .fault f := by
  cases c with
  | bytes b o => cases o <;> simp [deString]
  | _ => simp [deString]

theorem mapErr_ok_iff {ε ε' α : Type} (r : Res ε α) (f : ε → ε') (a : α) :
    mapErr r f = .ok a ↔ r = .ok a := by
  cases r <;> simp

theorem visitMap_ok {cfg : Cfg} (es : List (Content × Content)) (x : FP L P) :
    visitMap cfg es = .ok x ↔
      ∃ s, contentText true (.map es) = some s ∧ FP.fromStr cfg s = .ok x := by
  unfold visitMap
  cases es with
  | nil => simp [contentText]
  | cons e es =>
    obtain ⟨k, v⟩ := e
    dsimp only [contentText]
    cases hk : deString k with
    | ok key =>
      dsimp only
      rw [deString_ok] at hk
      rw [hk]
      by_cases hkey : key = "$value".toList
      · rw [if_pos hkey, if_pos ⟨rfl, by rw [hkey]⟩]
        cases hvv : deString v with
        | ok s =>
          dsimp only
          rw [deString_ok] at hvv
          rw [mapErr_ok_iff, hvv]
          simp
        | err e =>
          have : contentText.key v = none := by
            cases h : contentText.key v with
            | none => rfl
            | some s => rw [← deString_ok, hvv] at h; cases h
          simp [this]
        | fault f => exact absurd hvv (deString_fault v f)
      · rw [if_neg hkey, if_neg (by simpa using hkey)]
        simp
    | err e =>
      have : contentText.key k = none := by
        cases h : contentText.key k with
        | none => rfl
        | some s => rw [← deString_ok, hk] at h; cases h
      simp [this]
    | fault f => exact absurd hk (deString_fault k f)

/-- C50, everything at once: human-readable deserialisation succeeds with `x` exactly when the
content is a text that parses to `x`, an integer equal to `x`, or a float that converts to `x`. -/
theorem C50_accepts_iff {cfg : Cfg} (hv : Valid cfg L P) (q : Bool) (c : Content) (x : FP L P) :
    FP.deserialize cfg q true c = .ok x ↔
      (∃ s, contentText q c = some s ∧ FP.fromStr cfg s = .ok x) ∨
      (∃ n : Int, contentInt c = some n ∧ value x = n) ∨
      (∃ f, contentFloat c = some f ∧ FP.tryFromF64 cfg f = .ok x) := by
  have key : ∀ n : Int, FP.tryFromInt cfg n = .ok x ↔ value x = n := by
    intro n
    obtain ⟨h1, h2⟩ := C27_try_from_int (L := L) (P := P) hv n
    by_cases h : Representable L P n
    · obtain ⟨y, e, hy⟩ := h1 h
      rw [e]
      constructor
      · intro h; cases h; exact hy
      · intro h; rw [value_inj (hy.trans h.symm)]
    · rw [h2 h]
      refine ⟨by simp, fun e => absurd ?_ h⟩
      rw [← e]
      exact ⟨x, rfl⟩
  unfold FP.deserialize
  rw [if_pos rfl]
  unfold visitAny
  cases c with
  | str b s => simp [visitStr, contentText, contentInt, contentFloat, mapErr_ok_iff]
  | char ch => simp [visitStr, contentText, contentInt, contentFloat, mapErr_ok_iff]
  | f64 f => simp [visitF64, contentText, contentInt, contentFloat, mapErr_ok_iff]
  | f32 f => simp [visitF64, contentText, contentInt, contentFloat, mapErr_ok_iff]
  | int w v =>
    dsimp only
    unfold visitI64 visitI128
    have : ((if w ≤ 64 then mapErr (FP.tryFromInt cfg v) fun _ =>
          DeErr.invalidValue (.signed v) visitorExpecting
        else mapErr (FP.tryFromInt cfg v) fun _ => .invalidValue
          (if (BitVec.ofInt 64 v).toInt = v then .signed v else .other "big i128")
            visitorExpecting) = .ok x) ↔ value x = v := by
      split <;> rw [mapErr_ok_iff, key]
    rw [this]
    simp [contentText, contentInt, contentFloat]
  | uint w v =>
    dsimp only
    unfold visitU64 visitU128
    have : ((if w ≤ 64 then mapErr (FP.tryFromInt cfg v) fun _ =>
          DeErr.invalidValue (.unsigned v) visitorExpecting
        else mapErr (FP.tryFromInt cfg v) fun _ => .invalidValue
          (if (BitVec.ofNat 64 v).toNat = v then .unsigned v else .other "big u128")
            visitorExpecting) = .ok x) ↔ value x = (v : Int) := by
      split <;> rw [mapErr_ok_iff, key]
    rw [this]
    simp [contentText, contentInt, contentFloat]
  | map es =>
    cases q with
    | true =>
      simp only [if_true]
      rw [visitMap_ok]
      simp [contentInt, contentFloat]
    | false =>
      have : contentText false (.map es) = none := by
        cases es with
        | nil => rfl
        | cons e es => obtain ⟨k, v⟩ := e; simp [contentText]
      simp [this, contentInt, contentFloat]
  | _ => simp [contentText, contentInt, contentFloat]

example := C50_accepts_iff (cfg := debugCfg) (by decide) false (.uint 8 7) (⟨7000⟩ : FP .i32 3)

/-- C50: errors are errors: whatever the content, deserialisation returns. -/
theorem C50_returns {cfg : Cfg} (hv : Valid cfg L P) (q human : Bool) (c : Content) :
    Returns (FP.deserialize cfg q human c : Res DeErr (FP L P)) := by
  have hmap : ∀ {ε : Type} (r : Res ε (FP L P)) (f : ε → DeErr), Returns r → Returns (mapErr r f) := by
    intro ε r f h
    cases r <;> exact h
  have hs : ∀ s, Returns (FP.fromStr cfg s : Res ConvErr (FP L P)) := by
    intro s
    rcases C32_from_str_returns (P := P) hv s with ⟨x, h⟩ | ⟨e, h⟩ <;> rw [h] <;> trivial
  have hi : ∀ n : Int, Returns (FP.tryFromInt cfg n : Res ConvErr (FP L P)) := by
    intro n
    rw [tryFromInt_spec hv]
    split <;> trivial
  have hf : ∀ f, Returns (FP.tryFromF64 cfg f : Res ConvErr (FP L P)) :=
    fun f => C42_returns cfg L (valid_bounds hv FP.zero).2.2.2 f
  unfold FP.deserialize
  cases human with
  | false =>
    simp only [Bool.false_eq_true, if_false]
    unfold FP.reprDeserialize deInt
    dsimp only
    cases c <;> (dsimp only; repeat' split) <;> trivial
  | true =>
    simp only [if_true]
    unfold visitAny
    cases c with
    | str b s => exact hmap _ _ (hs s)
    | char ch => exact hmap _ _ (hs _)
    | f64 f => exact hmap _ _ (hf f)
    | f32 f => exact hmap _ _ (hf f)
    | int w v => dsimp only; split <;> exact hmap _ _ (hi v)
    | uint w v => dsimp only; split <;> exact hmap _ _ (hi v)
    | map es =>
      dsimp only
      split
      · unfold visitMap
        cases es with
        | nil => trivial
        | cons e es =>
          obtain ⟨k, v⟩ := e
          dsimp only
          cases hk : deString k with
          | ok key =>
            dsimp only
            split
            · cases hvv : deString v with
              | ok s => exact hmap _ _ (hs s)
              | err e => trivial
              | fault f => exact absurd hvv (deString_fault v f)
            · trivial
          | err e => trivial
          | fault f => exact absurd hk (deString_fault k f)
      · trivial
    | _ => trivial

example := C50_returns (cfg := debugCfg) (L := .i32) (P := 3) (by decide) false true
  (.seq [.bool true])

/-- How serde names a content it did not want: by its value if it is a boolean, a number of at most
64 bits, a float or a text, by its kind otherwise; wider integers are written out. -/
inductive Spec.Named : Content → Unexpected → Prop
  | bool (b : Bool) : Named (.bool b) (.bool b)
  | signed (w : Nat) (v : Int) : w < 65 → Named (.int w v) (.signed v)
  | signedWide (w : Nat) (v : Int) : 65 ≤ w → Named (.int w v) (.other s!"integer `{v}` as i128")
  | unsigned (w v : Nat) : w < 65 → Named (.uint w v) (.unsigned v)
  | unsignedWide (w v : Nat) : 65 ≤ w → Named (.uint w v) (.other s!"integer `{v}` as u128")
  | f32 (f : BitVec 64) : Named (.f32 f) (.float f)
  | f64 (f : BitVec 64) : Named (.f64 f) (.float f)
  | char (ch : Char) : Named (.char ch) (.str [ch])
  | str (b : Bool) (s : List Char) : Named (.str b s) (.str s)
  | bytes (b : Bool) (s : Option (List Char)) : Named (.bytes b s) .bytes
  | unit : Named .unit .unit
  | none : Named .none .option
  | some (c : Content) : Named (.some c) .option
  | newtype (c : Content) : Named (.newtype c) .newtypeStruct
  | seq (cs : List Content) : Named (.seq cs) .seq
  | map (es : List (Content × Content)) : Named (.map es) .map
  | enum : Named .enum .enum

theorem unexpected_named (c : Content) : Named c c.unexpected := by
  cases c with
  | int w v =>
    unfold Content.unexpected
    dsimp only
    by_cases h : w ≤ 64
    · rw [if_pos h]; exact .signed w v (by omega)
    · rw [if_neg h]; exact .signedWide w v (by omega)
  | uint w v =>
    unfold Content.unexpected
    dsimp only
    by_cases h : w ≤ 64
    · rw [if_pos h]; exact .unsigned w v (by omega)
    · rw [if_neg h]; exact .unsignedWide w v (by omega)
  | _ => constructor

theorem named_unique {c : Content} {u v : Unexpected} (h1 : Named c u) (h2 : Named c v) : u = v := by
  cases h1 <;> cases h2 <;> first | rfl | omega

theorem named_iff (c : Content) (u : Unexpected) : Named c u ↔ c.unexpected = u :=
  ⟨fun h => named_unique (unexpected_named c) h, fun h => h ▸ unexpected_named c⟩

/-- C50, the errors: a text that does not parse is an invalid value that shows the text, and a
content that is neither a text nor a number is an invalid type, named as serde names it — a map is
just a map, whatever is wrong with it. -/
theorem C50_errors (cfg : Cfg) (q : Bool) (c : Content) :
    (∀ s, contentText q c = some s → (∃ e, (FP.fromStr cfg s : Res ConvErr (FP L P)) = .err e) →
      (FP.deserialize cfg q true c : Res DeErr (FP L P)) =
        .err (.invalidValue (.str s) "number or string containing a fixed-point number")) ∧
    (contentText q c = none → contentInt c = none → contentFloat c = none →
      ∀ u, Named c u → (FP.deserialize cfg q true c : Res DeErr (FP L P)) =
        .err (.invalidType u "number or string containing a fixed-point number")) := by
  unfold FP.deserialize visitAny
  rw [if_pos rfl]
  constructor
  · rintro s hs ⟨e, he⟩
    cases c with
    | str b t =>
      simp only [contentText, Option.some.injEq] at hs
      subst hs
      simp only [visitStr, he, mapErr_err, visitorExpecting]
    | char ch =>
      simp only [contentText, Option.some.injEq] at hs
      subst hs
      simp only [visitStr, he, mapErr_err, visitorExpecting]
    | map es =>
      cases es with
      | nil => simp [contentText] at hs
      | cons p es =>
        obtain ⟨k, v⟩ := p
        simp only [contentText] at hs
        split at hs
        · rename_i hk
          have h1 := (deString_ok k _).2 hk.2
          have h2 := (deString_ok v _).2 hs
          simp only [hk.1, if_true, visitMap, h1, h2, he, mapErr_err, visitorExpecting]
        · cases hs
    | _ => simp [contentText] at hs
  · intro h1 h2 h3 u hu
    rw [named_iff] at hu
    subst hu
    cases c with
    | str b t => simp [contentText] at h1
    | char ch => simp [contentText] at h1
    | int w v => simp [contentInt] at h2
    | uint w v => simp [contentInt] at h2
    | f32 f => simp [contentFloat] at h3
    | f64 f => simp [contentFloat] at h3
    | map es =>
      dsimp only
      split
      · rename_i hq
        subst hq
        cases es with
        | nil => rfl
        | cons p es =>
          obtain ⟨k, v⟩ := p
          unfold visitMap
          dsimp only
          rcases hk : deString k with s | e | f
          · dsimp only
            split
            · rename_i hs
              subst hs
              rw [deString_ok] at hk
              simp only [contentText, hk, and_self, if_true] at h1
              rcases hv : deString v with t | e | f
              · rw [deString_ok, h1] at hv
                cases hv
              · rfl
              · exact absurd hv (deString_fault v f)
            · rfl
          · rfl
          · exact absurd hk (deString_fault k f)
      · rfl
    | _ => rfl

example : contentText true (.map [(.bool true, .str true "1".toList)]) = none ∧
    (FP.deserialize debugCfg true true (.map [(.bool true, .str true "1".toList)]) :
      Res DeErr (FP .i64 9)) =
      .err (.invalidType .map "number or string containing a fixed-point number") ∧
    contentText true (.map [(.str false "$value".toList, .str false "1x".toList)]) =
      some "1x".toList ∧
    ∃ e, (FP.fromStr debugCfg "1x".toList : Res ConvErr (FP .i64 9)) = .err e :=
  ⟨by decide +kernel, by decide +kernel, by decide +kernel, _, rfl⟩
example := (C50_errors (L := .i64) (P := 9) debugCfg false (.newtype (.bool true))).2 rfl rfl rfl _
  (.newtype _)

/-- C50, the errors for integers: a number that is not representable is shown in the error if it
fits in 64 bits, and by a fixed text otherwise. -/
theorem C50_integer_errors {cfg : Cfg} (hv : Valid cfg L P) (q : Bool) (w : Nat) :
    (∀ v : Int, ¬ Representable L P v → (w ≤ 64 ∨ -2 ^ 63 ≤ v ∧ v < 2 ^ 63) →
      (FP.deserialize cfg q true (.int w v) : Res DeErr (FP L P)) =
        .err (.invalidValue (.signed v) "number or string containing a fixed-point number")) ∧
    (∀ v : Int, ¬ Representable L P v → 64 < w → ¬ (-2 ^ 63 ≤ v ∧ v < 2 ^ 63) →
      (FP.deserialize cfg q true (.int w v) : Res DeErr (FP L P)) =
        .err (.invalidValue (.other "big i128")
          "number or string containing a fixed-point number")) ∧
    (∀ v : Nat, ¬ Representable L P v → (w ≤ 64 ∨ v < 2 ^ 64) →
      (FP.deserialize cfg q true (.uint w v) : Res DeErr (FP L P)) =
        .err (.invalidValue (.unsigned v) "number or string containing a fixed-point number")) ∧
    (∀ v : Nat, ¬ Representable L P v → 64 < w → 2 ^ 64 ≤ v →
      (FP.deserialize cfg q true (.uint w v) : Res DeErr (FP L P)) =
        .err (.invalidValue (.other "big u128")
          "number or string containing a fixed-point number")) := by
  have hs : ∀ v : Int, (BitVec.ofInt 64 v).toInt = v ↔ -2 ^ 63 ≤ v ∧ v < 2 ^ 63 := by
    intro v
    rw [BitVec.toInt_ofInt]
    constructor
    · intro h
      have h1 := Int.le_bmod (x := v) (m := 2 ^ 64) (by norm_num)
      have h2 := Int.bmod_lt (x := v) (m := 2 ^ 64) (by norm_num)
      omega
    · intro h
      exact Int.bmod_eq_of_le (by omega) (by omega)
  have hu : ∀ v : Nat, (BitVec.ofNat 64 v).toNat = v ↔ v < 2 ^ 64 := by
    intro v
    rw [BitVec.toNat_ofNat]
    omega
  refine ⟨fun v h1 h2 => ?_, fun v h1 h2 h3 => ?_, fun v h1 h2 => ?_, fun v h1 h2 h3 => ?_⟩
  all_goals
    have e := (C27_try_from_int (L := L) (P := P) hv v).2 (by exact_mod_cast h1)
    simp only [FP.deserialize, visitAny, if_true, visitI64, visitI128, visitU64, visitU128, e,
      mapErr_err, visitorExpecting, hs, hu]
  · split
    · rfl
    · rw [if_pos (by omega)]
  · rw [if_neg (by omega), if_neg h3]
  · split
    · rfl
    · rw [if_pos (by omega)]
  · rw [if_neg (by omega), if_neg (by omega)]
example := (C50_integer_errors (cfg := debugCfg) (L := .i64) (P := 9) (by decide) true 128).1 (2 ^ 62)
  (fun ⟨x, hx⟩ => by have := (C52_bounds x).2; rw [hx] at this; revert this; decide +kernel)
  (.inr (by decide))

/-- C50, binary: an integer is the raw value; contents of 128 bits are accepted by `i128` only. -/
theorem C50_binary_iff {cfg : Cfg} (q : Bool) (c : Content) (x : FP L P) :
    FP.deserialize cfg q false c = .ok x ↔
      ∃ n w, (c = .int w n ∨ ∃ m : Nat, c = .uint w m ∧ (m : Int) = n) ∧
        (L.bits ≤ 64 → w ≤ 64) ∧ value x = n / 10 ^ P := by
  have hp : (0 : ℚ) < 10 ^ P := by positivity
  have hx : ∀ n : Int, value x = n / 10 ^ P ↔ x.inner.toInt = n := by
    intro n
    unfold value
    rw [div_left_inj' hp.ne']
    exact_mod_cast Iff.rfl
  have key : ∀ (e : DeErr) (n : Int), (if Fits L.bits n then Res.ok (BitVec.ofInt L.bits n)
      else (.err e : Res DeErr _)) = .ok x.inner ↔ x.inner.toInt = n := by
    intro e n
    have hfit := toInt_fits x.inner
    split
    · rename_i h
      constructor
      · intro e; injection e with e; rw [← e, toInt_ofInt_of_fits (bits_pos L) h]
      · intro e; rw [← e, BitVec.ofInt_toInt]
    · rename_i h
      refine ⟨by simp, fun e => absurd (e ▸ hfit) h⟩
  have hred : FP.deserialize cfg q false c = .ok x ↔ deInt L.bits c = .ok x.inner := by
    unfold FP.deserialize FP.reprDeserialize
    simp only [Bool.false_eq_true, if_false]
    cases deInt L.bits c with
    | ok b =>
      rw [mapOk_ok]
      unfold FP.fromBits
      constructor
      · intro h; injection h with h; rw [← h]
      · intro h; injection h with h; rw [h]
    | err e => simp
    | fault f => simp
  rw [hred]
  cases c with
  | int w v =>
    unfold deInt
    dsimp only
    by_cases h : 64 < w ∧ L.bits ≤ 64
    · rw [if_pos h]
      refine ⟨by simp, ?_⟩
      rintro ⟨n, w', hc, hw, -⟩
      rcases hc with hc | ⟨m, hc, -⟩
      · injection hc with h1 h2
        have := hw h.2
        omega
      · cases hc
    · rw [if_neg h, key]
      constructor
      · intro e
        exact ⟨v, w, .inl rfl, by omega, (hx v).2 e⟩
      · rintro ⟨n, w', hc, hw, e⟩
        rcases hc with hc | ⟨m, hc, -⟩
        · injection hc with h1 h2
          rw [h2]
          exact (hx n).1 e
        · cases hc
  | uint w v =>
    unfold deInt
    dsimp only
    by_cases h : 64 < w ∧ L.bits ≤ 64
    · rw [if_pos h]
      refine ⟨by simp, ?_⟩
      rintro ⟨n, w', hc, hw, -⟩
      rcases hc with hc | ⟨m, hc, -⟩
      · cases hc
      · injection hc with h1 h2
        have := hw h.2
        omega
    · rw [if_neg h, key]
      constructor
      · intro e
        exact ⟨v, w, .inr ⟨v, rfl, rfl⟩, by omega, (hx v).2 e⟩
      · rintro ⟨n, w', hc, hw, e⟩
        rcases hc with hc | ⟨m, hc, hm⟩
        · cases hc
        · injection hc with h1 h2
          rw [h2, hm]
          exact (hx n).1 e
  | _ =>
    unfold deInt
    dsimp only
    refine ⟨by simp, ?_⟩
    rintro ⟨n, w', hc, -, -⟩
    rcases hc with hc | ⟨m, hc, -⟩ <;> cases hc

-- one content of each kind
example :
    (FP.deserialize debugCfg false true (.str true "1.5".toList) : Res DeErr (FP .i32 3)) =
      .ok ⟨1500⟩ ∧
    (FP.deserialize debugCfg false true (.uint 64 7) : Res DeErr (FP .i32 3)) = .ok ⟨7000⟩ ∧
    (FP.deserialize debugCfg false true (.int 128 (2 ^ 90)) : Res DeErr (FP .i32 3)) =
      .err (.invalidValue (.other "big i128") "number or string containing a fixed-point number") ∧
    (FP.deserialize debugCfg false true (.f64 0x3FF8000000000000) : Res DeErr (FP .i32 3)) =
      .ok ⟨1500⟩ ∧
    (FP.deserialize debugCfg true true
      (.map [(.str false "$value".toList, .str false "1.5".toList)]) : Res DeErr (FP .i32 3)) =
      .ok ⟨1500⟩ ∧
    (FP.deserialize debugCfg true true .none : Res DeErr (FP .i32 3)) =
      .err (.invalidType .option "number or string containing a fixed-point number") := by
  decide +kernel

/-! ## C61 -/

/-- C61: the `float` module writes `f64::from(x)` and reads it back as the same number, for the
raw values of C47. -/
theorem C61_float {cfg cfg' : Cfg} (hv : Valid cfg L P) (x : FP L P)
    (hs : InRoundTripRange P (value x * 10 ^ P)) (hm : value x ≠ minValue L P) :
    ∃ f, (FP.floatSerialize cfg x : Res ε _) = .ok (.f64 f) ∧
      (FP.toF64 cfg x : Res ε _) = .ok f ∧
      ∀ b c, Delivers b (.f64 f) c → FP.floatDeserialize cfg' c = .ok x := by
  obtain ⟨f, h1, -⟩ := C46_finite (ε := ε) hv x
  have h2 := C47_round_trip_partial (cfg' := cfg') hv x f h1 hs hm
  refine ⟨f, ?_, h1, fun b c h => ?_⟩
  · unfold FP.floatSerialize
    rw [h1, ok_bind]
  · cases h
    unfold FP.floatDeserialize deF64 FP.floatParse
    dsimp only
    rw [ok_bind, h2, mapErr_ok]

example := C61_float (ε := Unit) (cfg := debugCfg) (cfg' := releaseCfg) (by decide)
  (⟨13420000000⟩ : FP .i64 9) (by unfold InRoundTripRange; decide +kernel) (by decide +kernel)

/-- C61, the `float_option` module. -/
theorem C61_float_option {cfg cfg' : Cfg} (hv : Valid cfg L P) (o : Option (FP L P))
    (ho : ∀ x, o = some x → InRoundTripRange P (value x * 10 ^ P) ∧ value x ≠ minValue L P) :
    ∃ t, (FP.floatOptionSerialize cfg o : Res ε _) = .ok t ∧
      ∀ b c, Delivers b t c → FP.floatOptionDeserialize cfg' c = .ok o := by
  cases o with
  | none =>
    refine ⟨_, rfl, fun b c h => ?_⟩
    cases h <;> rfl
  | some x =>
    obtain ⟨hs, hm⟩ := ho x rfl
    obtain ⟨f, h1, -⟩ := C46_finite (ε := ε) hv x
    have h2 := C47_round_trip_partial (cfg' := cfg') hv x f h1 hs hm
    refine ⟨.some (.f64 f), ?_, fun b c h => ?_⟩
    · unfold FP.floatOptionSerialize
      dsimp only
      rw [h1, ok_bind]
    · unfold FP.floatOptionDeserialize
      rw [deOption_some deF64 (a := f) h (fun c hc => by cases hc; rfl)
        (by unfold deF64; simp) (by unfold deF64; simp) (by intro c; unfold deF64; simp), ok_bind]
      dsimp only
      unfold FP.floatParse
      rw [h2, mapErr_ok, mapOk_ok]

example := C61_float_option (ε := Unit) (cfg := debugCfg) (cfg' := releaseCfg) (by decide)
  (some (⟨13420000000⟩ : FP .i64 9))
  (by rintro x ⟨⟩; unfold InRoundTripRange; decide +kernel)

theorem ofInt_finite {z : Int} (h : |z| ≤ 2 ^ 53) : f64Finite (F64.ofInt z) := by
  by_cases h0 : z = 0
  · subst h0; decide +kernel
  · have hv : |((z : Int) : ℚ)| < 2 ^ 1023 := by
      have : (|z| : ℚ) ≤ 2 ^ 53 := by exact_mod_cast h
      exact lt_of_le_of_lt this (pow_lt_pow_right₀ (by norm_num) (by norm_num))
    obtain ⟨e, q, -, hf, -⟩ := ofRat_form (v := (z : ℚ)) (by exact_mod_cast h0) hv
    exact hf

/-- C61: the `float` module reads an integer of at most `2^53` in magnitude as exactly that number,
and rejects it when it is not representable.  (`MIN` is rejected as well, like by
`TryFrom<f64>`.) -/
theorem C61_float_integer {cfg : Cfg} (hv : Valid cfg L P) (c : Content) (n : Int)
    (hc : (∃ w, w ≤ 64 ∧ c = .int w n) ∨ ∃ w m, w ≤ 64 ∧ c = .uint w m ∧ (m : Int) = n)
    (hn : |n| ≤ 2 ^ 53) (hm : (n : ℚ) ≠ minValue L P) :
    (Representable L P n → ∃ x : FP L P, FP.floatDeserialize cfg c = .ok x ∧ value x = n) ∧
    (¬ Representable L P n → ∃ f, (FP.floatDeserialize cfg c : Res DeErr (FP L P)) =
      .err (.invalidValue (.float f) "float containing a fixed-point number")) := by
  have e : deF64 c = .ok (F64.ofInt n) := by
    rcases hc with ⟨w, hw, rfl⟩ | ⟨w, m, hw, rfl, rfl⟩ <;>
    · unfold deF64
      dsimp only
      rw [if_pos hw]
  obtain ⟨h1, h2⟩ := C43_integer_partial (L := L) cfg (valid_bounds hv FP.zero).2.2.2 (F64.ofInt n)
    (ofInt_finite hn) n (ofInt_exact hn) hm
  unfold FP.floatDeserialize FP.floatParse
  rw [e, ok_bind]
  refine ⟨fun h => ?_, fun h => ?_⟩
  · obtain ⟨x, hx, hx'⟩ := h1 h
    exact ⟨x, by rw [hx, mapErr_ok], hx'⟩
  · exact ⟨_, by rw [h2 h, mapErr_err]⟩

example := C61_float_integer (L := .i32) (P := 3) (cfg := debugCfg) (by decide) (.uint 64 7) 7
  (.inr ⟨64, 7, by decide, rfl, rfl⟩) (by norm_num) (by decide +kernel)

example : (FP.floatSerialize debugCfg (⟨1500⟩ : FP .i32 3) : Res Unit _) =
      .ok (.f64 0x3FF8000000000000) ∧
    (FP.floatDeserialize debugCfg (.f64 0x3FF8000000000000) : Res DeErr (FP .i32 3)) = .ok ⟨1500⟩ ∧
    (FP.floatOptionDeserialize debugCfg (.uint 64 7) : Res DeErr (Option (FP .i32 3))) =
      .ok (some ⟨7000⟩) := by decide +kernel

end Fixnum
