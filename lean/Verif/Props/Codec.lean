import Verif.Codec
import Verif.SpecBasic
import Verif.Props.Rounding

/-! # Property C48: SCALE encoding -/

namespace Fixnum

open Res Spec

variable {L : Layout} {P : Nat}

namespace Spec

/-- The number whose little-endian bytes are given. -/
def leNat (bs : List (BitVec 8)) : Nat := bs.foldr (fun b n => b.toNat + 256 * n) 0


end Spec

theorem bits_div (L : Layout) : L.bits = 8 * (L.bits / 8) := by cases L <;> rfl

theorem encodeLe_length : ∀ n v, (encodeLe n v).length = n
  | 0, _ => rfl
  | n + 1, v => by unfold encodeLe; rw [List.length_cons, encodeLe_length n]

theorem leNat_encodeLe : ∀ n v, leNat (encodeLe n v) = v % 2 ^ (8 * n)
  | 0, v => by simp [encodeLe, leNat, Nat.mod_one]
  | n + 1, v => by
    unfold encodeLe
    have ih := leNat_encodeLe n (v / 2 ^ 8)
    unfold leNat at ih ⊢
    rw [List.foldr_cons, ih, BitVec.toNat_ofNat, show 8 * (n + 1) = 8 + 8 * n by ring, pow_add,
      Nat.mod_mul, show (256 : Nat) = 2 ^ 8 from rfl]

theorem leNat_lt : ∀ bs, leNat bs < 2 ^ (8 * bs.length)
  | [] => by simp [leNat]
  | b :: bs => by
    have ih := leNat_lt bs
    unfold leNat at ih ⊢
    rw [List.foldr_cons, List.length_cons, show 8 * (bs.length + 1) = 8 + 8 * bs.length by ring,
      pow_add]
    have := b.isLt
    have e : (2 : Nat) ^ 8 = 256 := rfl
    rw [e] at *
    generalize (2 : Nat) ^ (8 * bs.length) = M at *
    omega

theorem encodeLe_leNat : ∀ bs, encodeLe bs.length (leNat bs) = bs
  | [] => rfl
  | b :: bs => by
    have ih := encodeLe_leNat bs
    rw [List.length_cons]
    unfold encodeLe
    have h : leNat (b :: bs) = b.toNat + 256 * leNat bs := rfl
    have hb := b.isLt
    rw [h]
    congr 1
    · apply BitVec.eq_of_toNat_eq
      rw [BitVec.toNat_ofNat]
      omega
    · rw [show (b.toNat + 256 * leNat bs) / 2 ^ 8 = leNat bs by omega, ih]

theorem decodeLe_spec : ∀ n bs, n ≤ bs.length →
    decodeLe n bs = .ok (leNat (bs.take n), bs.drop n)
  | 0, bs, _ => by simp [decodeLe, leNat]
  | n + 1, [], h => by simp at h
  | n + 1, b :: bs, h => by
    unfold decodeLe
    rw [decodeLe_spec n bs (by simpa using h), ok_bind]
    rfl

theorem decodeLe_short : ∀ n bs, bs.length < n → ∃ e, decodeLe n bs = .err e
  | 0, _, h => by omega
  | n + 1, [], _ => ⟨_, rfl⟩
  | n + 1, b :: bs, h => by
    obtain ⟨e, he⟩ := decodeLe_short n bs (by simpa using h)
    exact ⟨e, by unfold decodeLe; rw [he, err_bind]⟩

/-- C48: the encoding has exactly the size of the layout. -/
theorem C48_length (x : FP L P) : 8 * (FP.encode x).length = L.bits := by
  unfold FP.encode FP.encodeTo
  rw [List.nil_append, encodeLe_length, ← bits_div]

example : FP.encode (⟨-2⟩ : FP .i16 2) = [254, 255] ∧ FP.encode (⟨258⟩ : FP .i32 0) = [2, 1, 0, 0] := by
  decide +kernel

/-- C48: the bytes are the little-endian two's complement of the raw value: as a number they are
congruent to `value · 10^P` modulo `2^BITS`. -/
theorem C48_little_endian (x : FP L P) : leNat (FP.encode x) < 2 ^ L.bits ∧
    ∃ k : Int, value x * 10 ^ P = ((leNat (FP.encode x) : Int) + k * 2 ^ L.bits : Int) := by
  have h : leNat (FP.encode x) = x.inner.toNat := by
    unfold FP.encode FP.encodeTo
    rw [List.nil_append, leNat_encodeLe, ← bits_div]
    exact Nat.mod_eq_of_lt x.inner.isLt
  rw [h]
  refine ⟨x.inner.isLt, ?_⟩
  have hp : (0 : ℚ) < 10 ^ P := by positivity
  have e : value x * 10 ^ P = (x.inner.toInt : ℚ) := by
    unfold value; rw [div_mul_cancel₀ _ hp.ne']
  rw [e, BitVec.toInt_eq_toNat_cond]
  split
  · exact ⟨0, by simp⟩
  · exact ⟨-1, by push_cast; ring⟩

/-- C48: encoding appends to the output. -/
theorem C48_encode_to (x : FP L P) (out : List (BitVec 8)) :
    FP.encodeTo x out = out ++ FP.encode x := by
  unfold FP.encode FP.encodeTo
  rw [List.nil_append]

example : FP.encodeTo (⟨258⟩ : FP .i16 2) [9] = [9, 2, 1] := by decide +kernel

/-- C48: decoding what was encoded gives the number and leaves the rest of the input. -/
theorem C48_round_trip (x : FP L P) (rest : List (BitVec 8)) :
    FP.decode (FP.encode x ++ rest) = .ok (x, rest) := by
  have hl : (FP.encode x).length = L.bits / 8 := by
    have := C48_length x
    omega
  unfold FP.decode
  rw [decodeLe_spec _ _ (by rw [List.length_append, hl]; omega), ok_bind, ← hl, List.take_left,
    List.drop_left]
  dsimp only
  have h : leNat (FP.encode x) = x.inner.toNat := by
    unfold FP.encode FP.encodeTo
    rw [List.nil_append, leNat_encodeLe, ← bits_div]
    exact Nat.mod_eq_of_lt x.inner.isLt
  unfold FP.decodeFrom FP.fromBits
  rw [ok_bind, mapErr_ok, h, BitVec.ofNat_toNat, BitVec.setWidth_eq]

example : (FP.decode [254, 255, 7] : Res CodecErr (FP .i16 2 × _)) = .ok (⟨-2⟩, [7]) := by
  decide +kernel

/-- C48: every input of sufficient length is decoded, consuming exactly the bytes of one number,
and encoding that number gives back those bytes. -/
theorem C48_decode_iff (input rest : List (BitVec 8)) (x : FP L P) :
    FP.decode input = .ok (x, rest) ↔ input = FP.encode x ++ rest := by
  constructor
  · intro h
    by_cases hl : L.bits / 8 ≤ input.length
    · unfold FP.decode at h
      rw [decodeLe_spec _ _ hl, ok_bind] at h
      dsimp only at h
      unfold FP.decodeFrom FP.fromBits at h
      rw [ok_bind, mapErr_ok] at h
      injection h with h
      injection h with h1 h2
      subst h1 h2
      have hlen : (input.take (L.bits / 8)).length = L.bits / 8 := by
        rw [List.length_take]; omega
      have hlt := leNat_lt (input.take (L.bits / 8))
      rw [hlen, ← bits_div] at hlt
      have : FP.encode (⟨BitVec.ofNat L.bits (leNat (input.take (L.bits / 8)))⟩ : FP L P) =
          input.take (L.bits / 8) := by
        unfold FP.encode FP.encodeTo FP.encodeAs FP.asBits
        rw [List.nil_append]
        dsimp only
        rw [BitVec.toNat_ofNat, Nat.mod_eq_of_lt hlt]
        conv_lhs => rw [← hlen]
        rw [hlen]
        have := encodeLe_leNat (input.take (L.bits / 8))
        rwa [hlen] at this
      rw [this, List.take_append_drop]
    · obtain ⟨e, he⟩ := decodeLe_short _ input (not_le.1 hl)
      unfold FP.decode at h
      rw [he, err_bind, mapErr_err] at h
      cases h
  · rintro rfl
    exact C48_round_trip x rest

/-- C48: too short inputs, and only those, are rejected. -/
theorem C48_decode_short (input : List (BitVec 8)) :
    (FP.decode input : Res CodecErr (FP L P × _)) = .err ⟨"Error decoding FixedPoint value"⟩ ↔
      8 * input.length < L.bits := by
  have hb := bits_div L
  constructor
  · intro h
    by_contra hc
    unfold FP.decode at h
    rw [decodeLe_spec _ _ (by omega), ok_bind] at h
    dsimp only at h
    unfold FP.decodeFrom at h
    rw [ok_bind, mapErr_ok] at h
    cases h
  · intro h
    obtain ⟨e, he⟩ := decodeLe_short (L.bits / 8) input (by omega)
    unfold FP.decode
    rw [he, err_bind, mapErr_err]

example : (FP.decode [254] : Res CodecErr (FP .i16 2 × _)) =
    .err ⟨"Error decoding FixedPoint value"⟩ := by decide +kernel

/-- C48: the encoding is injective. -/
theorem C48_injective (x y : FP L P) (h : FP.encode x = FP.encode y) : x = y := by
  have h1 := C48_round_trip x []
  rw [h, C48_round_trip y []] at h1
  injection h1 with h1
  injection h1 with h1
  exact h1.symm

example := C48_injective (⟨-10042⟩ : FP .i32 3) ⟨0xFFFFD8C6⟩ (by decide +kernel)

/-- C48: the conversion behind the compact encoding is a bijection between numbers and words. -/
theorem C48_compact (x : FP L P) (w : BitVec L.bits) :
    FP.decodeFrom (FP.encodeAs x) = .ok x ∧
    (∃ y : FP L P, FP.decodeFrom w = .ok y ∧ FP.encodeAs y = w) ∧
    FP.fromCompact x = x := ⟨rfl, ⟨⟨w⟩, rfl, rfl⟩, rfl⟩

-- `-10.042` with 3 digits
example : FP.encode (⟨-10042⟩ : FP .i32 3) = [0xC6, 0xD8, 0xFF, 0xFF] ∧
    (FP.decode [0xC6, 0xD8, 0xFF, 0xFF, 0x07] : Res CodecErr (FP .i32 3 × _)) =
      .ok (⟨-10042⟩, [0x07]) ∧
    (FP.decode [0xC6, 0xD8, 0xFF] : Res CodecErr (FP .i32 3 × _)) =
      .err ⟨"Error decoding FixedPoint value"⟩ := by decide +kernel

end Fixnum
