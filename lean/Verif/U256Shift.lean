import Verif.U256DivWord

/-! # Helper lemmas: shifts, bit lengths and word lists of `U256` -/

namespace Fixnum

open Res

variable {ε : Type}

namespace U256

theorem shift_pow {s : Nat} (hs : s < 64) : 2 ^ s * 2 ^ (64 - s) = 2 ^ 64 := by
  rw [← pow_add]; congr 1; omega

/-- A word shifted left by `s` keeps its low `64 - s` bits. -/
theorem shl_mod {s : Nat} (hs : s < 64) (w : Nat) :
    w * 2 ^ s % 2 ^ 64 = (w % 2 ^ (64 - s)) * 2 ^ s := by
  rw [← shift_pow hs, Nat.mul_comm (2 ^ s) (2 ^ (64 - s)), Nat.mul_mod_mul_right]

theorem shl_word_arith {S T B a b : Nat} (hST : S * T = B) (hT : 0 < T) (hb : b < B) :
    a % T * S + b / T < B := by
  have h1 : a % T + 1 ≤ T := Nat.mod_lt _ hT
  have h2 : b / T < S := by rw [Nat.div_lt_iff_lt_mul hT, hST]; exact hb
  calc a % T * S + b / T < a % T * S + S := by omega
    _ = (a % T + 1) * S := by ring
    _ ≤ T * S := Nat.mul_le_mul_right _ h1
    _ = B := by rw [Nat.mul_comm, hST]

theorem shl_sum_arith {S T B a b c d : Nat} (hST : S * T = B) :
    (a + b * B + c * (B * B) + d * (B * B * B)) * S
      = a % T * S + (b % T * S + a / T) * B + (c % T * S + b / T) * (B * B)
        + (d % T * S + c / T) * (B * B * B) + d / T * (B * B * B * B) := by
  have key : ∀ w : Nat, w * S = w / T * B + w % T * S := by
    intro w
    conv_lhs => rw [← Nat.div_add_mod w T]
    rw [← hST]; ring
  calc (a + b * B + c * (B * B) + d * (B * B * B)) * S
      = a * S + b * S * B + c * S * (B * B) + d * S * (B * B * B) := by ring
    _ = _ := by rw [key a, key b, key c, key d]; ring

theorem addAt_ok (cfg : Cfg) (ret : List W64) (i : Nat) (v : W64) (hi : i < ret.length)
    (h : ret[i].toNat + v.toNat < 2 ^ 64) :
    ∃ r : W64, (addAt cfg ret i v : Res ε _) = .ok (ret.set i r) ∧
      r.toNat = ret[i].toNat + v.toNat := by
  obtain ⟨r, h1, h2⟩ := UInt.add_ok (ε := ε) cfg ret[i] v h
  exact ⟨r, by simp only [addAt, idx_ok hi, h1, ok_bind], h2⟩

/-- Left shift by less than one word. -/
theorem shl_spec (cfg : Cfg) (x : U256) {s : Nat} (hs : s < 64) :
    ∃ r : U256, (shl cfg x s : Res ε _) = .ok r ∧ r.toNat = x.toNat * 2 ^ s % 2 ^ 256 := by
  have h0 := x.w0.isLt; have h1 := x.w1.isLt; have h2 := x.w2.isLt; have h3 := x.w3.isLt
  have e1 : s / 64 = 0 := Nat.div_eq_of_lt hs
  have e2 : s % 64 = s := Nat.mod_eq_of_lt hs
  have hST := shift_pow hs
  have hTpos : 0 < 2 ^ (64 - s) := Nat.pow_pos (by norm_num)
  obtain ⟨a0, ha0, ea0⟩ := UInt.shl_ok (ε := ε) cfg x.w0 hs
  obtain ⟨a1, ha1, ea1⟩ := UInt.shl_ok (ε := ε) cfg x.w1 hs
  obtain ⟨a2, ha2, ea2⟩ := UInt.shl_ok (ε := ε) cfg x.w2 hs
  obtain ⟨a3, ha3, ea3⟩ := UInt.shl_ok (ε := ε) cfg x.w3 hs
  rw [shl_mod hs] at ea0 ea1 ea2 ea3
  have first : ((List.range' 0 (4 - 0)).foldlM (fun (ret : List W64) i => do
      let o ← idx x.words (i - 0)
      let s ← UInt.shl cfg o s
      (.ok (ret.set i s) : Res ε _)) [0, 0, 0, 0]) = .ok [a0, a1, a2, a3] := by
    simp only [List.range', List.foldlM, idx, words, Nat.sub_zero, Nat.zero_add,
      Nat.reduceAdd, List.getElem?_cons_zero, List.getElem?_cons_succ, ok_bind, ha0, ha1, ha2, ha3,
      List.set_cons_zero, List.set_cons_succ, pure_eq]
  unfold shl
  simp only [e1, e2, first, ok_bind]
  by_cases hpos : 0 < s
  · rw [if_pos hpos]
    have hs' : 64 - s < 64 := by omega
    obtain ⟨b0, hb0, eb0⟩ := UInt.shr_ok (ε := ε) cfg x.w0 hs'
    obtain ⟨b1, hb1, eb1⟩ := UInt.shr_ok (ε := ε) cfg x.w1 hs'
    obtain ⟨b2, hb2, eb2⟩ := UInt.shr_ok (ε := ε) cfg x.w2 hs'
    obtain ⟨c1, hc1, ec1⟩ := addAt_ok (ε := ε) cfg [a0, a1, a2, a3] 1 b0 (by simp) (by
      simp only [List.getElem_cons_succ, List.getElem_cons_zero]
      rw [ea1, eb0]; exact shl_word_arith hST hTpos h0)
    obtain ⟨c2, hc2, ec2⟩ := addAt_ok (ε := ε) cfg [a0, c1, a2, a3] 2 b1 (by simp) (by
      simp only [List.getElem_cons_succ, List.getElem_cons_zero]
      rw [ea2, eb1]; exact shl_word_arith hST hTpos h1)
    obtain ⟨c3, hc3, ec3⟩ := addAt_ok (ε := ε) cfg [a0, c1, c2, a3] 3 b2 (by simp) (by
      simp only [List.getElem_cons_succ, List.getElem_cons_zero]
      rw [ea3, eb2]; exact shl_word_arith hST hTpos h2)
    simp only [List.getElem_cons_succ, List.getElem_cons_zero] at ec1 ec2 ec3
    simp only [List.set_cons_zero, List.set_cons_succ] at hc1 hc2 hc3
    have second : ((List.range' (0 + 1) (4 - (0 + 1))).foldlM (fun (ret : List W64) i => do
        let o ← idx x.words (i - 1 - 0)
        let s ← UInt.shr cfg o (64 - s)
        (addAt cfg ret i s : Res ε _)) [a0, a1, a2, a3]) = .ok [a0, c1, c2, c3] := by
      simp only [List.range', List.foldlM, idx, words, Nat.sub_zero, Nat.zero_add,
        Nat.reduceAdd, Nat.reduceSub, List.getElem?_cons_zero, List.getElem?_cons_succ, ok_bind,
        hb0, hb1, hb2, hc1, hc2, hc3, pure_eq]
    simp only [second, ok_bind, ofWords]
    refine ⟨_, rfl, ?_⟩
    have hsum := shl_sum_arith (a := x.w0.toNat) (b := x.w1.toNat) (c := x.w2.toNat)
      (d := x.w3.toNat) hST
    have hx : x.toNat = x.w0.toNat + x.w1.toNat * 2 ^ 64 + x.w2.toNat * (2 ^ 64 * 2 ^ 64)
        + x.w3.toNat * (2 ^ 64 * 2 ^ 64 * 2 ^ 64) := by
      simp only [toNat]; ring
    rw [hx, hsum]
    have hlt := toNat_lt ⟨a0, c1, c2, c3⟩
    have hval : toNat ⟨a0, c1, c2, c3⟩ = x.w0.toNat % 2 ^ (64 - s) * 2 ^ s
        + (x.w1.toNat % 2 ^ (64 - s) * 2 ^ s + x.w0.toNat / 2 ^ (64 - s)) * 2 ^ 64
        + (x.w2.toNat % 2 ^ (64 - s) * 2 ^ s + x.w1.toNat / 2 ^ (64 - s)) * (2 ^ 64 * 2 ^ 64)
        + (x.w3.toNat % 2 ^ (64 - s) * 2 ^ s + x.w2.toNat / 2 ^ (64 - s))
          * (2 ^ 64 * 2 ^ 64 * 2 ^ 64) := by
      simp only [toNat, ea0, ec1, ec2, ec3, ea1, ea2, ea3, eb0, eb1, eb2]; ring
    rw [← hval, show (2:Nat) ^ 256 = 2 ^ 64 * 2 ^ 64 * 2 ^ 64 * 2 ^ 64 by norm_num,
      Nat.add_mul_mod_self_right, Nat.mod_eq_of_lt]
    rw [show (2:Nat) ^ 64 * 2 ^ 64 * 2 ^ 64 * 2 ^ 64 = 2 ^ 256 by norm_num]
    exact hlt
  · have hs0 : s = 0 := by omega
    subst hs0
    rw [if_neg hpos]
    simp only [ok_bind, ofWords]
    refine ⟨_, rfl, ?_⟩
    have hlt := toNat_lt x
    rw [pow_zero, Nat.mul_one, Nat.mod_eq_of_lt hlt]
    simp only [pow_zero, Nat.mul_one, Nat.sub_zero] at ea0 ea1 ea2 ea3
    rw [Nat.mod_eq_of_lt h0] at ea0
    rw [Nat.mod_eq_of_lt h1] at ea1
    rw [Nat.mod_eq_of_lt h2] at ea2
    rw [Nat.mod_eq_of_lt h3] at ea3
    simp only [toNat, ea0, ea1, ea2, ea3]

theorem shr_word_arith {S T B a b : Nat} (hST : S * T = B) (hS : 0 < S) (ha : a < B) :
    a / S + b % S * T < B := by
  have h1 : b % S + 1 ≤ S := Nat.mod_lt _ hS
  have h2 : a / S < T := by rw [Nat.div_lt_iff_lt_mul hS, Nat.mul_comm, hST]; exact ha
  calc a / S + b % S * T < T + b % S * T := by omega
    _ = (b % S + 1) * T := by ring
    _ ≤ S * T := Nat.mul_le_mul_right _ h1
    _ = B := hST

theorem shr_sum_arith {S T B a b c d : Nat} (hST : S * T = B) :
    a + b * B + c * (B * B) + d * (B * B * B)
      = S * (a / S + b % S * T + (b / S + c % S * T) * B + (c / S + d % S * T) * (B * B)
        + d / S * (B * B * B)) + a % S := by
  have key : ∀ w : Nat, w = w / S * S + w % S := fun w => (Nat.div_add_mod' w S).symm
  conv_lhs => rw [key a, key b, key c, key d]
  rw [← hST]; ring

/-- Right shift by less than one word. -/
theorem shr_spec (cfg : Cfg) (x : U256) {s : Nat} (hs : s < 64) :
    ∃ r : U256, (shr cfg x s : Res ε _) = .ok r ∧ r.toNat = x.toNat / 2 ^ s := by
  have h0 := x.w0.isLt; have h1 := x.w1.isLt; have h2 := x.w2.isLt; have h3 := x.w3.isLt
  have e1 : s / 64 = 0 := Nat.div_eq_of_lt hs
  have e2 : s % 64 = s := Nat.mod_eq_of_lt hs
  have hST := shift_pow hs
  have hSpos : 0 < 2 ^ s := Nat.pow_pos (by norm_num)
  obtain ⟨a0, ha0, ea0⟩ := UInt.shr_ok (ε := ε) cfg x.w0 hs
  obtain ⟨a1, ha1, ea1⟩ := UInt.shr_ok (ε := ε) cfg x.w1 hs
  obtain ⟨a2, ha2, ea2⟩ := UInt.shr_ok (ε := ε) cfg x.w2 hs
  obtain ⟨a3, ha3, ea3⟩ := UInt.shr_ok (ε := ε) cfg x.w3 hs
  have first : ((List.range' 0 (4 - 0)).foldlM (fun (ret : List W64) i => do
      let o ← idx x.words i
      let s ← UInt.shr cfg o s
      (.ok (ret.set (i - 0) s) : Res ε _)) [0, 0, 0, 0]) = .ok [a0, a1, a2, a3] := by
    simp only [List.range', List.foldlM, idx, words, Nat.sub_zero, Nat.zero_add,
      Nat.reduceAdd, List.getElem?_cons_zero, List.getElem?_cons_succ, ok_bind, ha0, ha1, ha2, ha3,
      List.set_cons_zero, List.set_cons_succ, pure_eq]
  unfold shr
  simp only [e1, e2, first, ok_bind]
  by_cases hpos : 0 < s
  · rw [if_pos hpos]
    have hs' : 64 - s < 64 := by omega
    have hss : 64 - (64 - s) = s := by omega
    obtain ⟨b1, hb1, eb1⟩ := UInt.shl_ok (ε := ε) cfg x.w1 hs'
    obtain ⟨b2, hb2, eb2⟩ := UInt.shl_ok (ε := ε) cfg x.w2 hs'
    obtain ⟨b3, hb3, eb3⟩ := UInt.shl_ok (ε := ε) cfg x.w3 hs'
    rw [shl_mod hs', hss] at eb1 eb2 eb3
    obtain ⟨c0, hc0, ec0⟩ := addAt_ok (ε := ε) cfg [a0, a1, a2, a3] 0 b1 (by simp) (by
      simp only [List.getElem_cons_zero]
      rw [ea0, eb1]; exact shr_word_arith hST hSpos h0)
    obtain ⟨c1, hc1, ec1⟩ := addAt_ok (ε := ε) cfg [c0, a1, a2, a3] 1 b2 (by simp) (by
      simp only [List.getElem_cons_succ, List.getElem_cons_zero]
      rw [ea1, eb2]; exact shr_word_arith hST hSpos h1)
    obtain ⟨c2, hc2, ec2⟩ := addAt_ok (ε := ε) cfg [c0, c1, a2, a3] 2 b3 (by simp) (by
      simp only [List.getElem_cons_succ, List.getElem_cons_zero]
      rw [ea2, eb3]; exact shr_word_arith hST hSpos h2)
    simp only [List.getElem_cons_succ, List.getElem_cons_zero] at ec0 ec1 ec2
    simp only [List.set_cons_zero, List.set_cons_succ] at hc0 hc1 hc2
    have second : ((List.range' (0 + 1) (4 - (0 + 1))).foldlM (fun (ret : List W64) i => do
        let o ← idx x.words i
        let s ← UInt.shl cfg o (64 - s)
        (addAt cfg ret (i - 0 - 1) s : Res ε _)) [a0, a1, a2, a3]) = .ok [c0, c1, c2, a3] := by
      simp only [List.range', List.foldlM, idx, words, Nat.sub_zero, Nat.zero_add,
        Nat.reduceAdd, Nat.reduceSub, List.getElem?_cons_zero, List.getElem?_cons_succ, ok_bind,
        hb1, hb2, hb3, hc0, hc1, hc2, pure_eq]
    simp only [second, ok_bind, ofWords]
    refine ⟨_, rfl, ?_⟩
    have hsum := shr_sum_arith (a := x.w0.toNat) (b := x.w1.toNat) (c := x.w2.toNat)
      (d := x.w3.toNat) hST
    have hx : x.toNat = x.w0.toNat + x.w1.toNat * 2 ^ 64 + x.w2.toNat * (2 ^ 64 * 2 ^ 64)
        + x.w3.toNat * (2 ^ 64 * 2 ^ 64 * 2 ^ 64) := by
      simp only [toNat]; ring
    rw [hx, hsum, Nat.mul_add_div hSpos, Nat.div_eq_of_lt (Nat.mod_lt _ hSpos), Nat.add_zero]
    simp only [toNat, ec0, ec1, ec2, ea0, ea1, ea2, ea3, eb1, eb2, eb3]; ring
  · have hs0 : s = 0 := by omega
    subst hs0
    rw [if_neg hpos]
    simp only [ok_bind, ofWords]
    refine ⟨_, rfl, ?_⟩
    simp only [pow_zero, Nat.div_one] at ea0 ea1 ea2 ea3 ⊢
    simp only [toNat, ea0, ea1, ea2, ea3]

/-- Right shift by exactly one word. -/
theorem shr64_spec (cfg : Cfg) (x : U256) :
    ∃ r : U256, (shr cfg x 64 : Res ε _) = .ok r ∧ r.toNat = x.toNat / 2 ^ 64 := by
  have h0 := x.w0.isLt
  have hs : ∀ w : W64, (UInt.shr cfg w 0 : Res ε _) = .ok w := by
    intro w; simp [UInt.shr]
  refine ⟨⟨x.w1, x.w2, x.w3, 0⟩, ?_, ?_⟩
  · unfold shr
    simp only [show 64 / 64 = 1 from rfl, show 64 % 64 = 0 from rfl, if_neg (Nat.lt_irrefl 0)]
    simp only [Nat.reduceSub, List.range', List.foldlM, idx, words, Nat.reduceAdd, hs,
      List.getElem?_cons_zero, List.getElem?_cons_succ, ok_bind, List.set_cons_zero,
      List.set_cons_succ, pure_eq, ofWords]
  · simp only [toNat]
    rw [show BitVec.toNat (0 : W64) = 0 from rfl]
    clear hs
    generalize x.w0.toNat = a at *
    generalize x.w1.toNat = b at *
    generalize x.w2.toNat = c at *
    generalize x.w3.toNat = d at *
    rw [show a + b * 2 ^ 64 + c * 2 ^ 128 + d * 2 ^ 192
      = a + 2 ^ 64 * (b + c * 2 ^ 64 + d * 2 ^ 128) by ring,
      Nat.add_mul_div_left _ _ (by positivity), Nat.div_eq_of_lt h0]
    ring

theorem valL_drop (l : List W64) (k : Nat) : valL (l.drop k) = valL l / 2 ^ (64 * k) := by
  induction k generalizing l with
  | zero => simp
  | succ k ih =>
    cases l with
    | nil => simp [valL]
    | cons x xs =>
      rw [List.drop_succ_cons, ih xs, valL]
      rw [show 64 * (k + 1) = 64 + 64 * k by ring, pow_add, ← Nat.div_div_eq_div_mul]
      rw [Nat.add_mul_div_left _ _ (by positivity), Nat.div_eq_of_lt x.isLt, Nat.zero_add]

theorem valL_take (l : List W64) (k : Nat) : valL (l.take k) = valL l % 2 ^ (64 * k) := by
  induction k generalizing l with
  | zero => simp [valL, Nat.mod_one]
  | succ k ih =>
    cases l with
    | nil => simp [valL]
    | cons x xs =>
      rw [List.take_succ_cons, valL, ih xs, valL]
      rw [show 64 * (k + 1) = 64 + 64 * k by ring, pow_add, Nat.mod_mul,
        Nat.add_mul_mod_self_left, Nat.mod_eq_of_lt x.isLt,
        Nat.add_mul_div_left _ _ (by positivity), Nat.div_eq_of_lt x.isLt, Nat.zero_add]

theorem getElem_valL (l : List W64) (i : Nat) (h : i < l.length) :
    (l[i]).toNat = valL l / 2 ^ (64 * i) % 2 ^ 64 := by
  rw [← valL_drop, List.drop_eq_getElem_cons h, valL, Nat.add_mul_mod_self_left,
    Nat.mod_eq_of_lt l[i].isLt]

/-- `full_shl`: the shifted value in five words. -/
theorem fullShl_spec (cfg : Cfg) (x : U256) {s : Nat} (hs : s < 64) :
    ∃ u : List W64, (fullShl cfg x s : Res ε _) = .ok u ∧ u.length = 5 ∧
      valL u = x.toNat * 2 ^ s := by
  have hST := shift_pow hs
  have hTpos : 0 < 2 ^ (64 - s) := Nat.pow_pos (by norm_num)
  obtain ⟨lo, hlo, elo⟩ := UInt.shl_ok (ε := ε) cfg x.w0 hs
  rw [shl_mod hs] at elo
  obtain ⟨hi, hhi, ehi⟩ : ∃ r : U256, (shr cfg x (64 - s) : Res ε _) = .ok r ∧
      r.toNat = x.toNat / 2 ^ (64 - s) := by
    by_cases h0 : s = 0
    · subst h0; exact shr64_spec cfg x
    · exact shr_spec cfg x (by omega)
  refine ⟨lo :: hi.words, ?_, rfl, ?_⟩
  · simp only [fullShl, debugAssert, hs, decide_true, Bool.not_true, Bool.and_false,
      Bool.false_eq_true, if_false, ok_bind, hlo, hhi]
  · rw [valL, valL_words, elo, ehi]
    have hmod : x.w0.toNat % 2 ^ (64 - s) = x.toNat % 2 ^ (64 - s) := by
      have hx : x.toNat = x.w0.toNat + 2 ^ (64 - s) * (2 ^ s * (x.w1.toNat + x.w2.toNat * 2 ^ 64
          + x.w3.toNat * 2 ^ 128)) := by
        rw [← Nat.mul_assoc, Nat.mul_comm (2 ^ (64 - s)), hST]
        simp only [toNat]; ring
      rw [hx, Nat.add_mul_mod_self_left]
    rw [hmod, ← hST]
    conv_rhs => rw [← Nat.div_add_mod x.toNat (2 ^ (64 - s))]
    ring

theorem or_add_of_lt' (x s l : Nat) (h : l < 2 ^ s) : l ||| (x * 2 ^ s) = l + x * 2 ^ s := by
  rw [Nat.or_comm, or_add_of_lt _ _ _ h, Nat.add_comm]

theorem fullShrWord_spec (cfg : Cfg) (u : List W64) {s : Nat} (hs : s < 64) (i : Nat)
    (hi : i + 1 < u.length) :
    ∃ r : W64, (fullShrWord cfg u s i : Res ε _) = .ok r ∧
      r.toNat = (u[i]).toNat / 2 ^ s + (u[i + 1]).toNat % 2 ^ s * 2 ^ (64 - s) := by
  have hST := shift_pow hs
  have hSpos : 0 < 2 ^ s := Nat.pow_pos (by norm_num)
  obtain ⟨a, ha, ea⟩ := UInt.shr_ok (ε := ε) cfg u[i] hs
  by_cases hpos : 0 < s
  · have hs' : 64 - s < 64 := by omega
    have hss : 64 - (64 - s) = s := by omega
    obtain ⟨b, hb, eb⟩ := UInt.shl_ok (ε := ε) cfg u[i + 1] hs'
    rw [shl_mod hs', hss] at eb
    refine ⟨a ||| b, ?_, ?_⟩
    · simp only [fullShrWord, idx_ok (by omega : i < u.length), idx_ok hi, ok_bind, ha, hb,
        if_pos hpos]
    · rw [BitVec.toNat_or, ea, eb, or_add_of_lt']
      rw [Nat.div_lt_iff_lt_mul hSpos, Nat.mul_comm, hST]; exact u[i].isLt
  · have hs0 : s = 0 := by omega
    subst hs0
    refine ⟨a, ?_, ?_⟩
    · simp only [fullShrWord, idx_ok (by omega : i < u.length), ok_bind, ha, if_neg hpos]
    · rw [ea]; simp [Nat.mod_one]

/-- `full_shr` of five words (the result is used modulo `2^256`). -/
theorem fullShr_spec (cfg : Cfg) (u : List W64) {s : Nat} (hs : s < 64) (hu : u.length = 5)
    (hv : valL u < 2 ^ 256 * 2 ^ s) :
    ∃ r : U256, (fullShr cfg u s : Res ε _) = .ok r ∧ r.toNat = valL u / 2 ^ s := by
  have hST := shift_pow hs
  have hSpos : 0 < 2 ^ s := Nat.pow_pos (by norm_num)
  match u, hu with
  | [u0, u1, u2, u3, u4], _ =>
    obtain ⟨r0, h0, e0⟩ := fullShrWord_spec (ε := ε) cfg [u0, u1, u2, u3, u4] hs 0 (by simp)
    obtain ⟨r1, h1, e1⟩ := fullShrWord_spec (ε := ε) cfg [u0, u1, u2, u3, u4] hs 1 (by simp)
    obtain ⟨r2, h2, e2⟩ := fullShrWord_spec (ε := ε) cfg [u0, u1, u2, u3, u4] hs 2 (by simp)
    obtain ⟨r3, h3, e3⟩ := fullShrWord_spec (ε := ε) cfg [u0, u1, u2, u3, u4] hs 3 (by simp)
    simp only [Nat.zero_add, Nat.reduceAdd, List.getElem_cons_succ, List.getElem_cons_zero] at e0 e1 e2 e3
    refine ⟨⟨r0, r1, r2, r3⟩, ?_, ?_⟩
    · simp only [fullShr, debugAssert, hs, decide_true, Bool.not_true, Bool.and_false,
        Bool.false_eq_true, if_false, ok_bind, h0, h1, h2, h3]
    · have hval : valL [u0, u1, u2, u3, u4] = u0.toNat + u1.toNat * 2 ^ 64
          + u2.toNat * (2 ^ 64 * 2 ^ 64) + u3.toNat * (2 ^ 64 * 2 ^ 64 * 2 ^ 64)
          + u4.toNat * (2 ^ 64 * 2 ^ 64 * 2 ^ 64 * 2 ^ 64) := by
        simp only [valL]; ring
      have hu4 : u4.toNat < 2 ^ s := by
        by_contra hc
        have : 2 ^ s * 2 ^ 256 ≤ u4.toNat * 2 ^ 256 := Nat.mul_le_mul_right _ (by omega)
        rw [show (2:Nat) ^ 64 * 2 ^ 64 * 2 ^ 64 * 2 ^ 64 = 2 ^ 256 by norm_num] at hval
        rw [Nat.mul_comm] at hv
        have hge : u4.toNat * 2 ^ 256 ≤ valL [u0, u1, u2, u3, u4] := by
          rw [hval]; exact Nat.le_add_left _ _
        exact absurd (le_trans this hge) (not_le.2 hv)
      have hsum := shr_sum_arith (a := u0.toNat) (b := u1.toNat) (c := u2.toNat)
        (d := u3.toNat) hST
      rw [hval, hsum]
      have h4 : u4.toNat * (2 ^ 64 * 2 ^ 64 * 2 ^ 64 * 2 ^ 64)
          = 2 ^ s * (u4.toNat * 2 ^ (64 - s) * (2 ^ 64 * 2 ^ 64 * 2 ^ 64)) := by
        rw [show 2 ^ s * (u4.toNat * 2 ^ (64 - s) * (2 ^ 64 * 2 ^ 64 * 2 ^ 64))
          = u4.toNat * (2 ^ s * 2 ^ (64 - s)) * (2 ^ 64 * 2 ^ 64 * 2 ^ 64) by ring, hST]; ring
      rw [h4, Nat.add_right_comm, ← Nat.mul_add, Nat.mul_add_div hSpos,
        Nat.div_eq_of_lt (Nat.mod_lt _ hSpos), Nat.add_zero]
      simp only [toNat, e0, e1, e2, e3]
      rw [Nat.mod_eq_of_lt hu4]; ring

/-- `bits` brackets a non-zero value. -/
theorem bits_spec (x : U256) (h : x.toNat ≠ 0) :
    0 < x.bits ∧ x.bits ≤ 256 ∧ 2 ^ (x.bits - 1) ≤ x.toNat ∧ x.toNat < 2 ^ x.bits := by
  have h0 := x.w0.isLt; have h1 := x.w1.isLt; have h2 := x.w2.isLt; have h3 := x.w3.isLt
  have nz : ∀ w : W64, w ≠ 0 → w.toNat ≠ 0 := fun w hw h' =>
    hw (BitVec.eq_of_toNat_eq (by simpa using h'))
  have z : ∀ w : W64, ¬ w ≠ 0 → w.toNat = 0 := fun w hw => by
    rw [not_not] at hw; subst hw; rfl
  have gen : ∀ (w : W64) (k low : Nat), w.toNat ≠ 0 → low < 2 ^ (64 * k) →
      x.toNat = low + w.toNat * 2 ^ (64 * k) → k ≤ 3 →
      0 < 64 * (k + 1) - UInt.leadingZeros w ∧ 64 * (k + 1) - UInt.leadingZeros w ≤ 256 ∧
      2 ^ (64 * (k + 1) - UInt.leadingZeros w - 1) ≤ x.toNat ∧
      x.toNat < 2 ^ (64 * (k + 1) - UInt.leadingZeros w) := by
    intro w k low hw hlow hx hk
    obtain ⟨hs, hs1, hs2⟩ := leadingZeros_spec w hw
    refine ⟨by omega, by omega, ?_, ?_⟩
    · rw [show 64 * (k + 1) - UInt.leadingZeros w - 1
        = (64 - 1 - UInt.leadingZeros w) + 64 * k by omega, pow_add, hx]
      exact le_trans (Nat.mul_le_mul_right _ hs1) (Nat.le_add_left _ _)
    · rw [show 64 * (k + 1) - UInt.leadingZeros w
        = (64 - UInt.leadingZeros w) + 64 * k by omega, pow_add, hx]
      calc low + w.toNat * 2 ^ (64 * k) < 2 ^ (64 * k) + w.toNat * 2 ^ (64 * k) := by omega
        _ = (w.toNat + 1) * 2 ^ (64 * k) := by ring
        _ ≤ _ := Nat.mul_le_mul_right _ hs2
  unfold bits
  by_cases c3 : x.w3 ≠ 0
  · rw [if_pos c3]
    exact gen x.w3 3 (x.w0.toNat + x.w1.toNat * 2 ^ 64 + x.w2.toNat * 2 ^ 128) (nz _ c3)
      (by norm_num only at *; omega) rfl (by omega)
  · rw [if_neg c3]
    have z3 := z _ c3
    by_cases c2 : x.w2 ≠ 0
    · rw [if_pos c2]
      exact gen x.w2 2 (x.w0.toNat + x.w1.toNat * 2 ^ 64) (nz _ c2)
        (by norm_num only at *; omega) (by simp only [toNat, z3]; omega) (by omega)
    · rw [if_neg c2]
      have z2 := z _ c2
      by_cases c1 : x.w1 ≠ 0
      · rw [if_pos c1]
        exact gen x.w1 1 x.w0.toNat (nz _ c1)
          (by norm_num only at *; omega) (by simp only [toNat, z3, z2]; omega) (by omega)
      · rw [if_neg c1]
        have z1 := z _ c1
        have : x.toNat = x.w0.toNat := by simp only [toNat, z1, z2, z3]; omega
        exact gen x.w0 0 0 (by omega) (by norm_num) (by rw [this]; simp) (by omega)

theorem bits_zero (x : U256) (h : x.toNat = 0) : x.bits = 0 := by
  have : x = zero := toNat_inj (by rw [h]; rfl)
  subst this; decide

theorem bits_eq_zero (x : U256) : x.bits = 0 ↔ x.toNat = 0 := by
  constructor
  · intro h
    by_contra hne
    have := (bits_spec x hne).1
    omega
  · exact bits_zero x

end U256

end Fixnum
