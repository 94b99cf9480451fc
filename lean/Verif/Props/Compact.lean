import Verif.Compact
import Verif.Props.Codec
import Verif.LiteralBasic

/-! # Property C84: compact SCALE encoding -/

namespace Fixnum

open Res Spec

variable {L : Layout} {P : Nat}

namespace Spec

/-- The number of bytes of a compact integer: one, two or four for numbers below `2^6`, `2^14`,
`2^30`, and otherwise one more than the number itself needs. -/
def IsCompactSize (v size : Nat) : Prop :=
  (v < 2 ^ 6 ∧ size = 1) ∨ (2 ^ 6 ≤ v ∧ v < 2 ^ 14 ∧ size = 2) ∨
  (2 ^ 14 ≤ v ∧ v < 2 ^ 30 ∧ size = 4) ∨
  (2 ^ 30 ≤ v ∧ ∃ k, 4 ≤ k ∧ v < 256 ^ k ∧ (4 < k → 256 ^ (k - 1) ≤ v) ∧ size = k + 1)

end Spec

theorem bytesNeeded_spec {n v : Nat} (hn : 4 ≤ n) (hv : 2 ^ 30 ≤ v) (hlt : v < 2 ^ (8 * n)) :
    4 ≤ n - (8 * n - 1 - v.log2) / 8 ∧ n - (8 * n - 1 - v.log2) / 8 ≤ n ∧
    v < 2 ^ (8 * (n - (8 * n - 1 - v.log2) / 8)) ∧
    2 ^ (8 * (n - (8 * n - 1 - v.log2) / 8 - 1)) ≤ v := by
  have h0 : v ≠ 0 := by rintro rfl; norm_num at hv
  have h1 : 30 ≤ v.log2 := (Nat.le_log2 h0).2 hv
  have h2 : v.log2 < 8 * n := (Nat.log2_lt h0).2 hlt
  refine ⟨by omega, by omega, ?_, ?_⟩
  · exact (Nat.log2_lt h0).1 (by omega)
  · exact (Nat.le_log2 h0).1 (by omega)

theorem decodeLe_encodeLe (k v : Nat) (rest : List (BitVec 8)) (hv : v < 2 ^ (8 * k)) :
    decodeLe k (encodeLe k v ++ rest) = .ok (v, rest) := by
  have hl := encodeLe_length k v
  rw [decodeLe_spec _ _ (by rw [List.length_append, hl]; omega)]
  conv => lhs; rw [show List.take k (encodeLe k v ++ rest) = encodeLe k v by
    rw [List.take_append_of_le_length (by rw [hl]), List.take_of_length_le (by rw [hl])]]
  rw [leNat_encodeLe, Nat.mod_eq_of_lt hv, List.drop_append_of_le_length (by rw [hl]),
    List.drop_of_length_le (by rw [hl]), List.nil_append]

theorem decodeLe_inv {k v : Nat} {input rest : List (BitVec 8)}
    (h : decodeLe k input = .ok (v, rest)) : input = encodeLe k v ++ rest ∧ v < 2 ^ (8 * k) := by
  by_cases hl : k ≤ input.length
  · rw [decodeLe_spec _ _ hl] at h
    injection h with h
    injection h with h1 h2
    have hlen : (input.take k).length = k := by rw [List.length_take]; omega
    have e := encodeLe_leNat (input.take k)
    have hlt := leNat_lt (input.take k)
    rw [hlen, h1] at e hlt
    refine ⟨?_, hlt⟩
    rw [e, ← h2, List.take_append_drop]
  · obtain ⟨e, he⟩ := decodeLe_short k input (by omega)
    rw [he] at h; cases h

theorem encodeLe_succ (k v : Nat) :
    encodeLe (k + 1) v = BitVec.ofNat 8 v :: encodeLe k (v / 2 ^ 8) := rfl

theorem least_eq {n k : Nat} (hk : 1 ≤ k) (hkn : k ≤ n) :
    (2 ^ (8 * n) - 1) >>> ((n - k + 1) * 8) = 2 ^ (8 * (k - 1)) - 1 := by
  rw [Nat.shiftRight_eq_div_pow]
  obtain ⟨j, rfl⟩ : ∃ j, n = k - 1 + j := ⟨n - (k - 1), by omega⟩
  rw [show (k - 1 + j - k + 1) * 8 = 8 * j by omega, Nat.mul_add, pow_add]
  have a := Nat.two_pow_pos (8 * (k - 1))
  have b := Nat.two_pow_pos (8 * j)
  generalize 2 ^ (8 * (k - 1)) = A at *
  generalize 2 ^ (8 * j) = B at *
  apply Nat.div_eq_of_lt_le
  · rw [Nat.sub_mul]; omega
  · rw [Nat.sub_add_cancel a]
    have := Nat.mul_pos a b
    omega

/-- A compact integer is read back, whatever follows it. -/
theorem compact_round_trip {n v : Nat} (hn : n = 2 ∨ 4 ≤ n ∧ n ≤ 67) (hv : v < 2 ^ (8 * n))
    (rest : List (BitVec 8)) : compactDecode n (compactEncode n v ++ rest) = .ok (v, rest) := by
  have tn (w : Nat) : (BitVec.ofNat 8 w).toNat = w % 256 := by rw [BitVec.toNat_ofNat]
  unfold compactEncode
  split
  · rename_i h
    simp only [List.cons_append, List.nil_append, compactDecode, tn]
    rw [show v * 4 % 256 = 4 * v by omega, Nat.mul_mod_right]
    rw [show 4 * v / 4 = v by omega]
    rfl
  · rename_i h1
    split
    · rename_i h2
      have e := decodeLe_encodeLe 2 (v * 4 + 1) rest (by norm_num; omega)
      rw [encodeLe_succ, List.cons_append] at e ⊢
      simp only [compactDecode, tn]
      rw [show (v * 4 + 1) % 256 % 4 = 1 by omega]
      rw [e, ok_bind]
      dsimp only
      rw [show (v * 4 + 1) / 4 = v by omega, if_pos (by omega)]
      rfl
    · rename_i h2
      split
      · rename_i h3
        have e := decodeLe_encodeLe 4 (v * 4 + 2) rest (by norm_num; omega)
        rw [encodeLe_succ, List.cons_append] at e ⊢
        simp only [compactDecode, tn]
        rw [show (v * 4 + 2) % 256 % 4 = 2 by omega]
        rw [e, ok_bind]
        dsimp only
        rw [show (v * 4 + 2) / 4 = v by omega, if_pos ⟨by omega, by omega, hv⟩]
        rfl
      · rename_i h3
        have h4 : 4 ≤ n := by
          rcases hn with rfl | h
          · exfalso; norm_num at hv; omega
          · exact h.1
        have h67 : n ≤ 67 := by omega
        obtain ⟨b1, b2, b3, b4⟩ := bytesNeeded_spec h4 (by norm_num; omega) hv
        dsimp only
        generalize n - (8 * n - 1 - v.log2) / 8 = k at *
        rw [List.cons_append]
        simp only [compactDecode, tn]
        rw [show (3 + (k - 4) * 4) % 256 = 4 * (k - 4) + 3 by omega,
          show (4 * (k - 4) + 3) % 4 = 3 by omega, show (4 * (k - 4) + 3) / 4 + 4 = k by omega]
        rw [if_neg (by omega), decodeLe_encodeLe k v rest b3, ok_bind]
        dsimp only
        have hx : (if k = 4 then 0b00111111111111111111111111111111
            else (2 ^ (8 * n) - 1) >>> ((n - k + 1) * 8)) < v := by
          split
          · omega
          · rw [least_eq (by omega) b2]; omega
        rw [if_pos hx]
        rfl

/-- Nothing else is read as a compact integer. -/
theorem compact_decode_inv {n v : Nat} (hn : n = 2 ∨ 4 ≤ n ∧ n ≤ 67) {input rest : List (BitVec 8)}
    (h : compactDecode n input = .ok (v, rest)) :
    v < 2 ^ (8 * n) ∧ input = compactEncode n v ++ rest := by
  have h2n : 2 ^ (8 * 2) ≤ 2 ^ (8 * n) := Nat.pow_le_pow_right (by norm_num) (by omega)
  norm_num at h2n
  unfold compactDecode at h
  cases input with
  | nil => cases h
  | cons p t =>
    dsimp only at h
    have hp := p.isLt
    have hof (w : Nat) (hw : w % 256 = p.toNat) : BitVec.ofNat 8 w = p := by
      apply BitVec.eq_of_toNat_eq; rw [BitVec.toNat_ofNat]; exact hw
    split at h
    · rename_i h0
      cases h
      refine ⟨by omega, ?_⟩
      unfold compactEncode
      rw [if_pos (by omega), hof _ (by omega)]; rfl
    · rename_i h0
      obtain ⟨⟨w, r⟩, hw, h⟩ := bind_ok_inv h
      dsimp only at h
      split at h
      · rename_i hx
        cases h
        obtain ⟨e1, e2⟩ := decodeLe_inv hw
        have e3 : BitVec.ofNat 8 w = p := by
          rw [encodeLe_succ, List.cons_append] at e1
          injection e1 with e1 _; exact e1.symm
        have e4 : w % 256 = p.toNat := by rw [← e3, BitVec.toNat_ofNat]
        refine ⟨by omega, ?_⟩
        unfold compactEncode
        rw [if_neg (by omega), if_pos (by omega), show w / 4 * 4 + 1 = w by omega, ← e1]
      · cases h
    · rename_i h0
      obtain ⟨⟨w, r⟩, hw, h⟩ := bind_ok_inv h
      dsimp only at h
      split at h
      · rename_i hx
        cases h
        obtain ⟨e1, e2⟩ := decodeLe_inv hw
        have e3 : BitVec.ofNat 8 w = p := by
          rw [encodeLe_succ, List.cons_append] at e1
          injection e1 with e1 _; exact e1.symm
        have e4 : w % 256 = p.toNat := by rw [← e3, BitVec.toNat_ofNat]
        refine ⟨hx.2.2, ?_⟩
        unfold compactEncode
        rw [if_neg (by omega), if_neg (by omega), if_pos (by omega),
          show w / 4 * 4 + 2 = w by omega, ← e1]
      · cases h
    · rename_i h0 h1 h2
      have hm : p.toNat % 4 = 3 := by
        have := Nat.mod_lt p.toNat (show 4 > 0 by norm_num)
        have a0 : p.toNat % 4 ≠ 0 := h0
        have a1 : p.toNat % 4 ≠ 1 := h1
        have a2 : p.toNat % 4 ≠ 2 := h2
        omega
      split at h
      · cases h
      · rename_i hk
        obtain ⟨⟨w, r⟩, hw, h⟩ := bind_ok_inv h
        dsimp only at h
        obtain ⟨least, hl⟩ : ∃ m, m = (if p.toNat / 4 + 4 = 4 then
          0b00111111111111111111111111111111
          else (2 ^ (8 * n) - 1) >>> ((n - (p.toNat / 4 + 4) + 1) * 8)) := ⟨_, rfl⟩
        rw [← hl] at h
        split at h
        · rename_i hx
          rw [hl] at hx
          cases h
          obtain ⟨e1, e2⟩ := decodeLe_inv hw
          obtain ⟨k, hk'⟩ : ∃ k, k = p.toNat / 4 + 4 := ⟨_, rfl⟩
          rw [← hk'] at hx e1 e2 hk
          have hlt : v < 2 ^ (8 * n) :=
            lt_of_lt_of_le e2 (Nat.pow_le_pow_right (by norm_num) (by omega))
          have h4 : 4 ≤ k := by omega
          have hw30 : 0b00111111111111111111111111111111 < v ∧ 2 ^ (8 * (k - 1)) ≤ v := by
            split at hx
            · rename_i e
              subst e; norm_num; omega
            · rw [least_eq (by omega) (by omega)] at hx
              have : 2 ^ (8 * (5 - 1)) ≤ 2 ^ (8 * (k - 1)) :=
                Nat.pow_le_pow_right (by norm_num) (by omega)
              norm_num at this
              omega
          refine ⟨hlt, ?_⟩
          obtain ⟨b1, b2, b3, b4⟩ := bytesNeeded_spec (n := n) (v := v) (by omega)
            (by norm_num; omega) hlt
          unfold compactEncode
          rw [if_neg (by omega), if_neg (by omega), if_neg (by omega)]
          dsimp only
          generalize n - (8 * n - 1 - v.log2) / 8 = j at *
          have hjk : j = k := by
            have c1 := (Nat.pow_lt_pow_iff_right (a := 2) (by norm_num)).1 (lt_of_le_of_lt b4 e2)
            have c2 := (Nat.pow_lt_pow_iff_right (a := 2) (by norm_num)).1
              (lt_of_le_of_lt hw30.2 b3)
            omega
          subst hjk
          rw [hof _ (by omega), List.cons_append, ← e1]
        · cases h

theorem compactEncode_size {n v : Nat} (hn : n = 2 ∨ 4 ≤ n ∧ n ≤ 67) (hv : v < 2 ^ (8 * n)) :
    IsCompactSize v (compactEncode n v).length := by
  unfold compactEncode IsCompactSize
  norm_num
  split
  · simp; omega
  · split
    · simp [encodeLe_length]; omega
    · split
      · simp [encodeLe_length]; omega
      · have h4 : 4 ≤ n := by
          rcases hn with rfl | h
          · exfalso; norm_num at hv; omega
          · exact h.1
        obtain ⟨b1, b2, b3, b4⟩ := bytesNeeded_spec h4 (by norm_num; omega) hv
        right; right; right
        refine ⟨by omega, n - (8 * n - 1 - v.log2) / 8, b1, ?_, fun _ => ?_, ?_⟩
        · rwa [show (256 : Nat) = 2 ^ 8 by norm_num, ← pow_mul]
        · rwa [show (256 : Nat) = 2 ^ 8 by norm_num, ← pow_mul]
        · rw [List.length_cons, encodeLe_length]

theorem bytes_ok (L : Layout) : L.bits / 8 = 2 ∨ 4 ≤ L.bits / 8 ∧ L.bits / 8 ≤ 67 := by
  cases L <;> simp [Layout.bits]

/-- C84: decoding what was encoded gives the number and leaves the rest of the input. -/
theorem C84_round_trip (x : FP L P) (rest : List (BitVec 8)) :
    FP.decodeCompact (FP.encodeCompact x ++ rest) = .ok (x, rest) := by
  unfold FP.decodeCompact FP.encodeCompact FP.encodeAs FP.asBits
  have h := x.inner.isLt
  rw [compact_round_trip (bytes_ok L) (by rw [← bits_div]; exact h), ok_bind]
  dsimp only
  unfold FP.decodeFrom FP.fromBits FP.fromCompact
  rw [ok_bind, BitVec.ofNat_toNat, BitVec.setWidth_eq]

example : FP.encodeCompact (⟨69⟩ : FP .i32 1) = [21, 1] ∧
    (FP.decodeCompact [21, 1, 9] : Res CodecErr (FP .i32 1 × _)) = .ok (⟨69⟩, [9]) := by decide +kernel

/-- C84: a number has one compact encoding only: whatever is decoded is what would be encoded. -/
theorem C84_decode_iff (input rest : List (BitVec 8)) (x : FP L P) :
    FP.decodeCompact input = .ok (x, rest) ↔ input = FP.encodeCompact x ++ rest := by
  constructor
  · intro h
    unfold FP.decodeCompact FP.decodeFrom FP.fromBits FP.fromCompact at h
    obtain ⟨⟨v, r⟩, hv, h⟩ := bind_ok_inv h
    dsimp only at h
    rw [ok_bind] at h
    cases h
    obtain ⟨h1, h2⟩ := compact_decode_inv (bytes_ok L) hv
    unfold FP.encodeCompact FP.encodeAs FP.asBits
    dsimp only
    rw [BitVec.toNat_ofNat, Nat.mod_eq_of_lt (by rw [bits_div]; exact h1)]
    exact h2
  · rintro rfl; exact C84_round_trip x rest

/-- C84: nothing panics. -/
theorem C84_returns (input : List (BitVec 8)) :
    (∃ e, (FP.decodeCompact input : Res CodecErr (FP L P × _)) = .err e) ∨
      ∃ x rest, (FP.decodeCompact input : Res CodecErr (FP L P × _)) = .ok (x, rest) := by
  have key : (∃ e, compactDecode (L.bits / 8) input = .err e) ∨
      ∃ p, compactDecode (L.bits / 8) input = .ok p := by
    have dl (k : Nat) (bs : List (BitVec 8)) :
        (∃ e, decodeLe k bs = .err e) ∨ ∃ p, decodeLe k bs = .ok p := by
      by_cases h : k ≤ bs.length
      · exact .inr ⟨_, decodeLe_spec k bs h⟩
      · exact .inl (decodeLe_short k bs (by omega))
    unfold compactDecode
    cases input with
    | nil => exact .inl ⟨_, rfl⟩
    | cons p t =>
      dsimp only
      split
      · exact .inr ⟨_, rfl⟩
      · rcases dl 2 (p :: t) with ⟨e, h⟩ | ⟨⟨w, r⟩, h⟩ <;> rw [h]
        · exact .inl ⟨e, rfl⟩
        · rw [ok_bind]; dsimp only; split
          · exact .inr ⟨_, rfl⟩
          · exact .inl ⟨_, rfl⟩
      · rcases dl 4 (p :: t) with ⟨e, h⟩ | ⟨⟨w, r⟩, h⟩ <;> rw [h]
        · exact .inl ⟨e, rfl⟩
        · rw [ok_bind]; dsimp only; split
          · exact .inr ⟨_, rfl⟩
          · exact .inl ⟨_, rfl⟩
      · split
        · exact .inl ⟨_, rfl⟩
        · rcases dl (p.toNat / 4 + 4) t with ⟨e, h⟩ | ⟨⟨w, r⟩, h⟩ <;> rw [h]
          · exact .inl ⟨e, rfl⟩
          · rw [ok_bind]
            generalize (if p.toNat / 4 + 4 = 4 then _ else _ : Nat) = m
            dsimp only; split
            · exact .inr ⟨_, rfl⟩
            · exact .inl ⟨_, rfl⟩
  unfold FP.decodeCompact
  rcases key with ⟨e, h⟩ | ⟨⟨v, r⟩, h⟩
  · left; exact ⟨e, by rw [h, err_bind]⟩
  · right; exact ⟨_, r, by rw [h, ok_bind]; rfl⟩

example : (FP.decodeCompact [21] : Res CodecErr (FP .i32 1 × _)) ≠ .panic := by decide +kernel

/-- C84: the size of a non-negative number. -/
theorem C84_size (x : FP L P) (v : Nat) (h : value x * 10 ^ P = v) :
    IsCompactSize v (FP.encodeCompact x).length := by
  have hv : x.inner.toInt = v := by
    unfold value at h
    rw [div_mul_cancel₀ _ (ten_pow_ne P)] at h
    exact_mod_cast h
  have e : x.inner.toNat = v := by
    rw [BitVec.toInt_eq_toNat_cond] at hv
    have := x.inner.isLt
    split at hv
    · exact_mod_cast hv
    · exfalso
      have : (x.inner.toNat : Int) < 2 ^ L.bits := by exact_mod_cast this
      push_cast at hv
      omega
  unfold FP.encodeCompact FP.encodeAs FP.asBits
  rw [e]
  exact compactEncode_size (bytes_ok L) (by rw [← bits_div, ← e]; exact x.inner.isLt)

example := C84_size (⟨1000000⟩ : FP .i64 9) 1000000 (by decide +kernel)

/-- C84: a negative number takes one byte more than the plain encoding (with `i16` two more): the
compact form saves nothing there. -/
theorem C84_size_negative (x : FP L P) (h : value x < 0) :
    (FP.encodeCompact x).length = (FP.encode x).length + (if L = .i16 then 2 else 1) := by
  have hv : x.inner.toInt < 0 := by
    unfold value at h
    have t := ten_pow_pos P
    rw [div_lt_iff₀ t, zero_mul] at h
    exact_mod_cast h
  have e : 2 ^ (L.bits - 1) ≤ x.inner.toNat := by
    rw [BitVec.toInt_eq_toNat_cond] at hv
    split at hv
    · exfalso; omega
    · rename_i hc
      have : 2 * 2 ^ (L.bits - 1) = 2 ^ L.bits := by cases L <;> rfl
      omega
  have hlt := x.inner.isLt
  have hl : (FP.encode x).length = L.bits / 8 := by have := C48_length x; omega
  rw [hl]
  unfold FP.encodeCompact FP.encodeAs FP.asBits
  have s := compactEncode_size (bytes_ok L) (v := x.inner.toNat) (by rw [← bits_div]; exact hlt)
  generalize (compactEncode (L.bits / 8) x.inner.toNat).length = z at *
  generalize x.inner.toNat = v at *
  have hk (n : Nat) (hn : 4 ≤ n) (h1 : 2 ^ (8 * n - 1) ≤ v) (h2 : v < 2 ^ (8 * n))
      (h : IsCompactSize v z) : z = n + 1 := by
    have h31 : 2 ^ 31 ≤ v := le_trans (Nat.pow_le_pow_right (by norm_num) (by omega)) h1
    norm_num at h31
    rcases h with h | h | h | ⟨-, k, k1, k2, k3, rfl⟩
    · have := h.1; norm_num at this; omega
    · have := h.2.1; norm_num at this; omega
    · have := h.2.1; norm_num at this; omega
    · rw [show (256 : Nat) = 2 ^ 8 by norm_num, ← pow_mul] at k2 k3
      have c1 := (Nat.pow_lt_pow_iff_right (a := 2) (by norm_num)).1 (lt_of_le_of_lt h1 k2)
      by_cases h4 : 4 < k
      · have c2 := (Nat.pow_lt_pow_iff_right (a := 2) (by norm_num)).1 (lt_of_le_of_lt (k3 h4) h2)
        omega
      · omega
  cases L with
  | i16 =>
    simp only [Layout.bits] at *
    norm_num at e hlt
    rcases s with h | h | h | h
    · have := h.1; norm_num at this; omega
    · have := h.2.1; norm_num at this; omega
    · simpa using h.2.2
    · have := h.1; norm_num at this; omega
  | i32 => simpa [Layout.bits] using hk 4 (by norm_num) e hlt s
  | i64 => simpa [Layout.bits] using hk 8 (by norm_num) e hlt s
  | i128 => simpa [Layout.bits] using hk 16 (by norm_num) e hlt s

example := C84_size_negative (⟨-300⟩ : FP .i16 2) (by decide +kernel)

/-- Non-trivial instances: every mode, and a refused long form of `1`. -/
example : FP.encodeCompact (⟨63⟩ : FP .i64 9) = [252] ∧
    FP.encodeCompact (⟨64⟩ : FP .i64 9) = [1, 1] ∧
    FP.encodeCompact (⟨1000000⟩ : FP .i64 9) = [2, 9, 61, 0] ∧
    FP.encodeCompact (⟨1000000000000⟩ : FP .i64 9) = [7, 0, 16, 165, 212, 232] ∧
    FP.encodeCompact (⟨-1⟩ : FP .i16 2) = [254, 255, 3, 0] ∧
    (FP.decodeCompact [5, 0] : Res CodecErr (FP .i64 9 × _)) =
      .err ⟨"out of range decoding Compact"⟩ ∧
    (FP.decodeCompact [7, 0, 16, 165, 212, 232, 9] : Res CodecErr (FP .i64 9 × _)) =
      .ok (⟨1000000000000⟩, [9]) := by decide +kernel

end Fixnum
