import Verif.Io
import Verif.Props.Serde
import Verif.Props.Codec
import Verif.Props.Division
import Verif.Props.Rounding

/-! # Property C111: readers and writers that fail -/

namespace Fixnum

open Res Spec

variable {ε E R σ : Type} {L : Layout} {P : Nat}

theorem idx_no_err {α : Type} (l : List α) (i : Nat) (e : ε) : idx l i ≠ .err e := by
  unfold idx
  split <;> simp

theorem pow10Loop_no_err (cfg : Cfg) : ∀ i r (e : ε), pow10Loop cfg i r ≠ .err e
  | 0, r, e => by simp [pow10Loop]
  | i + 1, r, e => by
    unfold pow10Loop
    exact bind_no_err (arith_no_err _ _) (fun _ => pow10Loop_no_err cfg i _) e

theorem coef_no_err (cfg : Cfg) (e : ε) : coef cfg L P ≠ .err e := by
  unfold coef pow10
  refine bind_no_err ?_ (fun _ _ h => by cases h) e
  intro e
  split_ifs
  · exact bind_no_err (idx_no_err _ _) (fun _ _ h => by cases h) e
  · exact bind_no_err (idx_no_err _ _) (fun _ => pow10Loop_no_err _ _ _) e

theorem debugAssert_no_err (cfg : Cfg) (b : Bool) (e : ε) : debugAssert cfg b ≠ .err e := by
  unfold debugAssert
  split_ifs <;> simp

theorem push_no_err (cfg : Cfg) (buf : StrBuf) (c : Char) (e : ε) : buf.push cfg c ≠ .err e := by
  unfold StrBuf.push
  exact bind_no_err (debugAssert_no_err _ _) (fun _ e => by split_ifs <;> simp) e

theorem pushStr_no_err (cfg : Cfg) (buf : StrBuf) (s : List Char) (e : ε) :
    buf.pushStr cfg s ≠ .err e := by
  unfold StrBuf.pushStr
  exact bind_no_err (debugAssert_no_err _ _) (fun _ e => by split_ifs <;> simp) e

theorem stringify_no_err (cfg : Cfg) (x : FP L P) (buf : StrBuf) (e : ε) :
    FP.stringify cfg x buf ≠ .err e := by
  unfold FP.stringify
  have h1 : ∀ (c : BitVec L.bits) (f : BitVec L.bits) (buf : StrBuf) (e : ε),
      FP.stringifyFrac cfg c f buf ≠ .err e := by
    intro c f buf e
    unfold FP.stringifyFrac
    split_ifs
    · exact bind_no_err (arith_no_err _ _) (fun _ => pushStr_no_err _ _ _) e
    · exact push_no_err _ _ _ _
  have hd : ∀ (a b : BitVec L.bits) (e : ε), SInt.div a b ≠ .err e := by
    intro a b e
    unfold SInt.div
    split_ifs <;> simp
  have hr : ∀ (a b : BitVec L.bits) (e : ε), SInt.rem a b ≠ .err e := by
    intro a b e
    unfold SInt.rem
    split_ifs <;> simp
  have ha : ∀ (a : BitVec L.bits) (e : ε), SInt.abs cfg a ≠ .err e := fun a => arith_no_err _ _
  refine bind_no_err (coef_no_err _) (fun c e => ?_) e
  have h2 : ∀ (buf : StrBuf) (e : ε), _ ≠ Res.err e := fun buf =>
    bind_no_err (hd x.inner c) fun q => bind_no_err (ha q) fun i =>
    bind_no_err (hr x.inner c) fun r => bind_no_err (ha r) fun f =>
    bind_no_err (pushStr_no_err cfg buf (itoa i.toInt)) fun b =>
    bind_no_err (push_no_err cfg b '.') fun b => h1 c f b
  dsimp only
  split_ifs
  · exact bind_no_err (push_no_err _ _ _) (fun b => h2 b) e
  · exact h2 buf e

/-- C111: whatever the serializer does with the token is the result of serialising; a panic while
making the token is one of the whole; making it is never an error. -/
theorem C111_serialize {cfg : Cfg} (s : Serializer E R) (x : FP L P) :
    (∀ t, (FP.serialize cfg s.human x : Res E _) = .ok t → FP.serializeTo cfg s x = s.call t) ∧
    (∀ f, (FP.serialize cfg s.human x : Res E _) = .fault f → FP.serializeTo cfg s x = .fault f) ∧
    ∀ e, (FP.serialize cfg s.human x : Res E _) ≠ .err e := by
  unfold FP.serialize FP.strSerialize FP.reprSerialize FP.serializeTo
  cases s.human with
  | false => simp
  | true =>
    cases h : (FP.stringify cfg x [] : Res E _) with
    | ok b => simp
    | err e => exact absurd h (stringify_no_err _ _ _ _)
    | fault f => simp

-- a writer that is full
example : FP.serializeTo debugCfg ⟨true, fun _ => (.err "disk full" : Res String Unit)⟩
    (⟨-15⟩ : FP .i64 1) = .err "disk full" :=
  (C111_serialize (cfg := debugCfg) ⟨true, fun _ => (.err "disk full" : Res String Unit)⟩
    (⟨-15⟩ : FP .i64 1)).1 (.str "-1.5".toList) (by decide +kernel)

/-- C111: whatever the formatter returns for the text is the result of formatting. -/
theorem C111_fmt {cfg : Cfg} (w : List Char → Res E Unit) (x : FP L P) :
    (∀ s, (FP.display cfg x : Res E _) = .ok s → FP.fmtTo cfg w x = w s) ∧
    (∀ f, (FP.display cfg x : Res E _) = .fault f → FP.fmtTo cfg w x = .fault f) ∧
    ∀ e, (FP.display cfg x : Res E _) ≠ .err e := by
  unfold FP.display FP.fmtTo
  cases h : (FP.stringify cfg x [] : Res E _) with
  | ok b => simp
  | err e => exact absurd h (stringify_no_err _ _ _ _)
  | fault f => simp

example : FP.fmtTo debugCfg (fun s => if s.length ≤ 3 then (.ok () : Res String Unit) else .err "full")
    (⟨-15⟩ : FP .i64 1) = .err "full" :=
  ((C111_fmt (cfg := debugCfg) (fun s => if s.length ≤ 3 then (.ok () : Res String Unit)
    else .err "full") (⟨-15⟩ : FP .i64 1)).1 "-1.5".toList (by decide +kernel)).trans rfl

theorem deString_cases (c : Content) :
    (∃ s, deString c = .ok s ∧ contentText.key c = some s) ∨
    ∃ e, deString c = .err e ∧ contentText.key c = none := by
  cases c with
  | bytes b s => cases s <;> simp [deString, contentText.key]
  | _ => simp [deString, contentText.key]

/-- C111, a map with the feature `quick-xml`: read if the first key and the value after it can be
read, are texts, the key is `$value` and the value parses.  If the value is read but does not parse,
the error shows it.  In all other cases, errors of the format included, the error is that a map is
an invalid type. -/
theorem C111_map {cfg : Cfg} (key : Except E (Option Content)) (value : Except E Content) :
    (∀ k v s, key = .ok (some k) → contentText.key k = some "$value".toList → value = .ok v →
      contentText.key v = some s →
      (∀ x : FP L P, FP.deserializeFrom cfg true true (.map key value) = .ok x ↔
        FP.fromStr cfg s = .ok x) ∧
      ((∃ e, (FP.fromStr cfg s : Res ConvErr (FP L P)) = .err e) →
        (FP.deserializeFrom cfg true true (.map key value) : Res _ (FP L P)) =
          .err (.de (.invalidValue (.str s) "number or string containing a fixed-point number")))) ∧
    ((¬ ∃ k v s, key = .ok (some k) ∧ contentText.key k = some "$value".toList ∧ value = .ok v ∧
      contentText.key v = some s) →
      (FP.deserializeFrom cfg true true (.map key value) : Res _ (FP L P)) =
        .err (.de (.invalidType .map "number or string containing a fixed-point number"))) := by
  refine ⟨?_, ?_⟩
  · rintro k v s rfl hk rfl hs
    have h1 : deString k = .ok "$value".toList := (deString_ok k _).2 hk
    have h2 : deString v = .ok s := (deString_ok v _).2 hs
    unfold FP.deserializeFrom FP.visitMapAccess
    simp only [if_true, h1, h2, mapOk_ok, mapErr_ok, ok_bind, ne_eq, not_true, if_false]
    refine ⟨fun x => ?_, ?_⟩
    · cases (FP.fromStr cfg s : Res ConvErr (FP L P)) <;> simp
    · rintro ⟨e, he⟩
      simp only [he, mapErr_err, visitorExpecting]
  · intro h
    unfold FP.deserializeFrom FP.visitMapAccess
    simp only [if_true, visitorExpecting]
    match key with
    | .error e => rfl
    | .ok none => rfl
    | .ok (some k) =>
      rcases deString_cases k with ⟨t, ht, hk⟩ | ⟨e, he, -⟩
      · simp only [ht, mapOk_ok, mapErr_ok, ok_bind]
        by_cases e : t = "$value".toList
        · subst e
          simp only [ne_eq, not_true, if_false]
          match value with
          | .error e => rfl
          | .ok v =>
            rcases deString_cases v with ⟨u, hu, hv⟩ | ⟨e, he, -⟩
            · exact absurd ⟨k, v, u, rfl, hk, rfl, hv⟩ h
            · simp only [he, mapErr_err]; rfl
        · rw [if_pos (by simpa using e)]
      · simp only [he, mapOk_err, mapErr_err]; rfl

-- a value that cannot be read, a value that parses and one that does not
example : (FP.deserializeFrom debugCfg true true
    (.map (.ok (some (.str false "$value".toList))) (.error "unexpected end")) :
      Res _ (FP .i64 1)) =
    .err (.de (.invalidType .map "number or string containing a fixed-point number")) :=
  (C111_map _ _).2 (by rintro ⟨k, v, s, h1, h2, h3, h4⟩; cases h3)
example : FP.deserializeFrom debugCfg true true
    (.map (.ok (some (.str false "$value".toList))) (.ok (.str false "-1.5".toList)) :
      Source String) = .ok (⟨-15⟩ : FP .i64 1) :=
  (((C111_map _ _).1 _ _ _ rfl rfl rfl rfl).1 _).2 (by decide +kernel)
example : (FP.deserializeFrom debugCfg true true
    (.map (.ok (some (.str false "$value".toList))) (.ok (.str false "x".toList)) :
      Source String) : Res _ (FP .i64 1)) =
    .err (.de (.invalidValue (.str "x".toList) "number or string containing a fixed-point number")) :=
  ((C111_map _ _).1 _ _ _ rfl rfl rfl rfl).2 ⟨⟨"can't parse integer"⟩, by
    decide +kernel⟩

/-- C111: an error of the format's own is reported exactly if it is the deserializer itself that
fails.  Errors of the format inside a map are not. -/
theorem C111_own {cfg : Cfg} (q h : Bool) (src : Source E) (e : E) :
    (FP.deserializeFrom cfg q h src : Res _ (FP L P)) = .err (.own e) ↔ src = .fail e := by
  cases src with
  | fail e' => simp [FP.deserializeFrom]
  | content c =>
    unfold FP.deserializeFrom
    dsimp only
    cases (FP.deserialize cfg q h c : Res DeErr (FP L P)) <;> simp
  | map k v =>
    refine iff_of_false ?_ (by simp)
    cases h
    · simp [FP.deserializeFrom]
    · cases q
      · simp [FP.deserializeFrom]
      · by_cases hc : ∃ k' v' s, k = .ok (some k') ∧ contentText.key k' = some "$value".toList ∧
            v = .ok v' ∧ contentText.key v' = some s
        · obtain ⟨k', v', s, h1, h2, h3, h4⟩ := hc
          obtain ⟨h5, h6⟩ := (C111_map (L := L) (P := P) (cfg := cfg) k v).1 k' v' s h1 h2 h3 h4
          intro h
          unfold FP.deserializeFrom FP.visitMapAccess at h
          have e1 : deString k' = .ok "$value".toList := (deString_ok k' _).2 h2
          have e2 : deString v' = .ok s := (deString_ok v' _).2 h4
          subst h1 h3
          simp only [if_true, e1, e2, mapOk_ok, mapErr_ok, ok_bind, ne_eq, not_true, if_false] at h
          cases hf : (FP.fromStr cfg s : Res ConvErr (FP L P)) <;> rw [hf] at h <;> simp at h
        · rw [(C111_map k v).2 hc]
          simp

example : (FP.deserializeFrom debugCfg true true (.fail "unexpected end" : Source String) :
    Res _ (FP .i64 1)) = .err (.own "unexpected end") := (C111_own _ _ _ _).2 rfl

/-- C111: reading from a source that delivers a content is what C49, C50 and C91 are about; a map
that is read without failures is the content `map`. -/
theorem C111_content {cfg : Cfg} (q h : Bool) (c : Content) (es : List (Content × Content)) :
    (∀ x : FP L P, FP.deserializeFrom cfg q h (.content c : Source E) = .ok x ↔
      FP.deserialize cfg q h c = .ok x) ∧
    (∀ k v, (FP.deserializeFrom cfg q h (.map (.ok (some k)) (.ok v) : Source E) : Res _ (FP L P)) =
      FP.deserializeFrom cfg q h (.content (.map ((k, v) :: es)))) ∧
    ∀ v, (FP.deserializeFrom cfg q h (.map (.ok none) v : Source E) : Res _ (FP L P)) =
      FP.deserializeFrom cfg q h (.content (.map [])) := by
  refine ⟨fun x => ?_, fun k v => ?_, fun v => ?_⟩
  · unfold FP.deserializeFrom
    dsimp only
    cases (FP.deserialize cfg q h c : Res DeErr (FP L P)) <;> simp
  · cases h
    · rfl
    · cases q
      · rfl
      · unfold FP.deserializeFrom FP.deserialize visitAny visitMap FP.visitMapAccess
        simp only [if_true]
        cases deString k with
        | ok t =>
          simp only [mapOk_ok, mapErr_ok, ok_bind]
          by_cases e : t = "$value".toList
          · subst e
            simp only [ne_eq, not_true, if_false, if_true]
            cases deString v with
            | ok u =>
              simp only [mapErr_ok, ok_bind]
              cases (FP.fromStr cfg u : Res ConvErr (FP L P)) <;> simp
            | err e => rfl
            | fault f => rfl
          · rw [if_pos (by simpa using e), if_neg e]; rfl
        | err e => rfl
        | fault f => rfl
  · cases h
    · rfl
    · cases q <;> rfl

example : FP.deserializeFrom debugCfg false true (.content (.int 64 (-7)) : Source String) =
    .ok (⟨-70⟩ : FP .i64 1) :=
  ((C111_content (E := String) false true (.int 64 (-7)) []).1 _).2 (by decide +kernel)

/-- C111: encoding writes to the output once, the bytes of C48; whatever that does is the result. -/
theorem C111_encode (write : List (BitVec 8) → σ → Res ε σ) (x : FP L P) (out : σ) :
    FP.encodeToOutput write x out = write (FP.encode x) out := by
  unfold FP.encodeToOutput FP.encode FP.encodeTo
  rw [List.nil_append]

-- an output that holds at most four bytes
example : FP.encodeToOutput (fun b (out : List (BitVec 8)) =>
    if (out ++ b).length ≤ 4 then (.ok (out ++ b) : Res CodecErr _) else .fault .panic)
    (⟨-10042⟩ : FP .i32 3) [1] = .fault .panic := by
  rw [C111_encode]; decide +kernel

theorem fromLeBytes_leNat : ∀ bs, FP.fromLeBytes bs = leNat bs
  | [] => rfl
  | b :: bs => by
    unfold FP.fromLeBytes
    rw [fromLeBytes_leNat bs]
    rfl

/-- C111: decoding asks the input once for the bytes of one number.  If that fails, the error is the
crate's, whatever the input's was; if it panics, so does the whole.  If it gives the bytes of a number,
that is the result, with the input as the reading left it; any other bytes of that length are those of
a number. -/
theorem C111_decode (read : Nat → σ → Res CodecErr (List (BitVec 8) × σ)) (input : σ) :
    (∀ e, read (L.bits / 8) input = .err e →
      (FP.decodeFromInput read input : Res _ (FP L P × σ)) =
        .err ⟨"Error decoding FixedPoint value"⟩) ∧
    (∀ f, read (L.bits / 8) input = .fault f →
      (FP.decodeFromInput read input : Res _ (FP L P × σ)) = .fault f) ∧
    ∀ buf rest, read (L.bits / 8) input = .ok (buf, rest) → buf.length = L.bits / 8 →
      ∃ x : FP L P, FP.encode x = buf ∧ FP.decodeFromInput read input = .ok (x, rest) := by
  unfold FP.decodeFromInput
  refine ⟨fun e h => ?_, fun f h => ?_, fun buf rest h hl => ?_⟩
  · rw [h]; rfl
  · rw [h]; rfl
  · rw [h, ok_bind]
    dsimp only
    refine ⟨⟨BitVec.ofNat L.bits (FP.fromLeBytes buf)⟩, ?_, rfl⟩
    have hlt := leNat_lt buf
    rw [hl, ← bits_div] at hlt
    unfold FP.encode FP.encodeTo FP.encodeAs FP.asBits
    rw [List.nil_append, fromLeBytes_leNat, BitVec.toNat_ofNat, Nat.mod_eq_of_lt hlt, ← hl,
      encodeLe_leNat]

-- an input that fails, and one that delivers four bytes
example : (FP.decodeFromInput (fun _ _ => .err ⟨"connection lost"⟩) 5 : Res _ (FP .i32 3 × Nat)) =
    .err ⟨"Error decoding FixedPoint value"⟩ := (C111_decode _ _).1 _ rfl
example : ∃ x : FP .i32 3, FP.encode x = [0xC6, 0xD8, 0xFF, 0xFF] ∧
    FP.decodeFromInput (fun n s => .ok ([0xC6, 0xD8, 0xFF, 0xFF], s + n)) 5 = .ok (x, 9) :=
  (C111_decode _ _).2.2 _ _ rfl rfl

end Fixnum
