import Verif.U256Ops
import Verif.U256Knuth

/-!
# Lemmas about `U256Ops.lean`, and shifts by any amount
-/

namespace Fixnum

open Res

variable {ε : Type}

namespace U256

theorem bind_bind {α β γ : Type} (m : Res ε α) (f : α → Res ε β) (g : β → Res ε γ) :
    ((m >>= f) >>= g) = (m >>= fun x => f x >>= g) := by
  cases m <;> rfl

theorem shl_small (cfg : Cfg) {s : Nat} (hs : s < 64) (w : W64) :
    (UInt.shl cfg w s : Res ε _) = .ok (w <<< s) := by unfold UInt.shl; rw [if_pos hs]

theorem shr_small (cfg : Cfg) {s : Nat} (hs : s < 64) (w : W64) :
    (UInt.shr cfg w s : Res ε _) = .ok (w >>> s) := by unfold UInt.shr; rw [if_pos hs]

theorem add_zero_word (cfg : Cfg) (a : W64) : (UInt.add cfg a 0 : Res ε _) = .ok a := by
  have e0 : (0 : W64).toNat = 0 := rfl
  obtain ⟨r, h, e⟩ := UInt.add_ok (ε := ε) cfg a 0 (by rw [e0, Nat.add_zero]; exact a.isLt)
  rw [h]; exact congrArg _ (BitVec.eq_of_toNat_eq (by rw [e, e0, Nat.add_zero]))

/-- A left shift by a word more is the shift of the number moved up by a word. -/
theorem shl_word (cfg : Cfg) (x : U256) (k : Nat) {s : Nat} (hs : s < 64) (hk : k ≤ 2) :
    (shl cfg x (64 * (k + 1) + s) : Res ε _) = shl cfg ⟨0, x.w0, x.w1, x.w2⟩ (64 * k + s) := by
  have e1 : (64 * (k + 1) + s) / 64 = k + 1 := by omega
  have e2 : (64 * (k + 1) + s) % 64 = s := by omega
  have e3 : (64 * k + s) / 64 = k := by omega
  have e4 : (64 * k + s) % 64 = s := by omega
  have z1 (n : Nat) : (0 : W64) <<< n = 0 := by simp
  have z2 (n : Nat) : (0 : W64) >>> n = 0 := by simp
  unfold shl
  simp only [e1, e2, e3, e4]
  by_cases h0 : 0 < s
  · have hs' : 64 - s < 64 := by omega
    obtain rfl | rfl | rfl : k = 0 ∨ k = 1 ∨ k = 2 := by omega
    all_goals
      simp only [if_pos h0, List.range', List.foldlM, idx, words, shl_small cfg hs,
        shr_small cfg hs', z1, z2, addAt, add_zero_word, bind_bind, Nat.reduceAdd, Nat.reduceSub,
        List.getElem?_cons_zero, List.getElem?_cons_succ, ok_bind, List.set_cons_zero,
        List.set_cons_succ, pure_eq]
  · obtain rfl | rfl | rfl : k = 0 ∨ k = 1 ∨ k = 2 := by omega
    all_goals
      simp only [if_neg h0, List.range', List.foldlM, idx, words, shl_small cfg hs,
        z1, addAt, Nat.reduceAdd, Nat.reduceSub,
        List.getElem?_cons_zero, List.getElem?_cons_succ, ok_bind, List.set_cons_zero,
        List.set_cons_succ, pure_eq]

/-- A right shift by a word more is the shift of the number moved down by a word. -/
theorem shr_word (cfg : Cfg) (x : U256) (k : Nat) {s : Nat} (hs : s < 64) (hk : k ≤ 2) :
    (shr cfg x (64 * (k + 1) + s) : Res ε _) = shr cfg ⟨x.w1, x.w2, x.w3, 0⟩ (64 * k + s) := by
  have e1 : (64 * (k + 1) + s) / 64 = k + 1 := by omega
  have e2 : (64 * (k + 1) + s) % 64 = s := by omega
  have e3 : (64 * k + s) / 64 = k := by omega
  have e4 : (64 * k + s) % 64 = s := by omega
  have z1 (n : Nat) : (0 : W64) <<< n = 0 := by simp
  have z2 (n : Nat) : (0 : W64) >>> n = 0 := by simp
  unfold shr
  simp only [e1, e2, e3, e4]
  by_cases h0 : 0 < s
  · have hs' : 64 - s < 64 := by omega
    obtain rfl | rfl | rfl : k = 0 ∨ k = 1 ∨ k = 2 := by omega
    all_goals
      simp only [if_pos h0, List.range', List.foldlM, idx, words, shr_small cfg hs,
        shl_small cfg hs', z1, z2, addAt, add_zero_word, bind_bind, Nat.reduceAdd, Nat.reduceSub,
        List.getElem?_cons_zero, List.getElem?_cons_succ, ok_bind, List.set_cons_zero,
        List.set_cons_succ, pure_eq]
  · obtain rfl | rfl | rfl : k = 0 ∨ k = 1 ∨ k = 2 := by omega
    all_goals
      simp only [if_neg h0, List.range', List.foldlM, idx, words, shr_small cfg hs,
        z2, addAt, Nat.reduceAdd, Nat.reduceSub,
        List.getElem?_cons_zero, List.getElem?_cons_succ, ok_bind, List.set_cons_zero,
        List.set_cons_succ, pure_eq]

theorem shl_none (cfg : Cfg) (x : U256) {s : Nat} (hs : 256 ≤ s) :
    (shl cfg x s : Res ε _) = .ok zero := by
  have e1 : 4 - s / 64 = 0 := by omega
  have e2 : 4 - (s / 64 + 1) = 0 := by omega
  unfold shl
  simp only [e1, e2, List.range', List.foldlM, pure_eq, ok_bind]
  split <;> rfl

theorem shr_none (cfg : Cfg) (x : U256) {s : Nat} (hs : 256 ≤ s) :
    (shr cfg x s : Res ε _) = .ok zero := by
  have e1 : 4 - s / 64 = 0 := by omega
  have e2 : 4 - (s / 64 + 1) = 0 := by omega
  unfold shr
  simp only [e1, e2, List.range', List.foldlM, pure_eq, ok_bind]
  split <;> rfl

theorem up_toNat (x : U256) : toNat ⟨0, x.w0, x.w1, x.w2⟩ = x.toNat * 2 ^ 64 % 2 ^ 256 := by
  have h0 := x.w0.isLt; have h1 := x.w1.isLt; have h2 := x.w2.isLt
  simp only [toNat, show (0 : W64).toNat = 0 from rfl]
  omega

theorem down_toNat (x : U256) : toNat ⟨x.w1, x.w2, x.w3, 0⟩ = x.toNat / 2 ^ 64 := by
  have h0 := x.w0.isLt
  simp only [toNat, show (0 : W64).toNat = 0 from rfl]
  omega

/-- The left shift by any amount. -/
theorem shl_any (cfg : Cfg) (x : U256) (s : Nat) :
    ∃ r : U256, (shl cfg x s : Res ε _) = .ok r ∧ r.toNat = x.toNat * 2 ^ s % 2 ^ 256 := by
  by_cases hs : 256 ≤ s
  · refine ⟨_, shl_none cfg x hs, ?_⟩
    obtain ⟨t, rfl⟩ := Nat.exists_eq_add_of_le hs
    rw [pow_add, ← mul_assoc, mul_right_comm, Nat.mul_mod_left]; rfl
  · have key : ∀ k : Nat, k ≤ 3 → ∀ (x : U256) (t : Nat), t < 64 →
        ∃ r : U256, (shl cfg x (64 * k + t) : Res ε _) = .ok r ∧
          r.toNat = x.toNat * 2 ^ (64 * k + t) % 2 ^ 256 := by
      intro k
      induction k with
      | zero =>
        intro _ x t ht
        rw [Nat.mul_zero, Nat.zero_add]; exact shl_spec cfg x ht
      | succ k ih =>
        intro hk x t ht
        obtain ⟨r, h1, h2⟩ := ih (by omega) ⟨0, x.w0, x.w1, x.w2⟩ t ht
        refine ⟨r, by rw [shl_word cfg x k ht (by omega), h1], ?_⟩
        rw [h2, up_toNat, Nat.mod_mul_mod, Nat.mul_assoc, ← pow_add]
        congr 3; omega
    obtain ⟨r, h1, h2⟩ := key (s / 64) (by omega) x (s % 64) (Nat.mod_lt _ (by norm_num))
    rw [Nat.div_add_mod] at h1 h2
    exact ⟨r, h1, h2⟩

/-- The right shift by any amount. -/
theorem shr_any (cfg : Cfg) (x : U256) (s : Nat) :
    ∃ r : U256, (shr cfg x s : Res ε _) = .ok r ∧ r.toNat = x.toNat / 2 ^ s := by
  by_cases hs : 256 ≤ s
  · refine ⟨_, shr_none cfg x hs, ?_⟩
    have := toNat_lt x
    have h2 : 2 ^ 256 ≤ 2 ^ s := Nat.pow_le_pow_right (by norm_num) hs
    rw [Nat.div_eq_of_lt (lt_of_lt_of_le this h2)]; rfl
  · have key : ∀ k : Nat, k ≤ 3 → ∀ (x : U256) (t : Nat), t < 64 →
        ∃ r : U256, (shr cfg x (64 * k + t) : Res ε _) = .ok r ∧
          r.toNat = x.toNat / 2 ^ (64 * k + t) := by
      intro k
      induction k with
      | zero =>
        intro _ x t ht
        rw [Nat.mul_zero, Nat.zero_add]; exact shr_spec cfg x ht
      | succ k ih =>
        intro hk x t ht
        obtain ⟨r, h1, h2⟩ := ih (by omega) ⟨x.w1, x.w2, x.w3, 0⟩ t ht
        refine ⟨r, by rw [shr_word cfg x k ht (by omega), h1], ?_⟩
        rw [h2, down_toNat, Nat.div_div_eq_div_mul, ← pow_add]
        congr 2; omega
    obtain ⟨r, h1, h2⟩ := key (s / 64) (by omega) x (s % 64) (Nat.mod_lt _ (by norm_num))
    rw [Nat.div_add_mod] at h1 h2
    exact ⟨r, h1, h2⟩

theorem ofU64_toNat (v : W64) : (ofU64 v).toNat = v.toNat := by
  simp [ofU64, toNat]

theorem asUsize_spec {pw : Nat} (hp : pw ≤ 64) (x : U256) :
    (asUsize pw x : Res ε Nat) = if x.toNat < 2 ^ pw then .ok x.toNat else .panic := by
  have h0 := x.w0.isLt
  have hpp : 2 ^ pw ≤ 2 ^ 64 := Nat.pow_le_pow_right (by norm_num) hp
  have hpos : 0 < 2 ^ pw := Nat.pow_pos (by norm_num)
  unfold asUsize
  by_cases hf : x.fitsWord = true
  · have hx : x.toNat = x.w0.toNat := by
      simp only [fitsWord, Bool.and_eq_true, beq_iff_eq] at hf
      simp [toNat, hf.1.1, hf.1.2, hf.2]
    rw [hf, hx]
    by_cases h : x.w0.toNat < 2 ^ pw
    · rw [if_pos h, if_neg]; simp; omega
    · rw [if_neg h, if_pos]; simp; omega
  · have hx : 2 ^ 64 ≤ x.toNat := by
      by_contra hlt
      apply hf
      simp only [toNat] at hlt
      have e1 : x.w1.toNat = 0 := by omega
      have e2 : x.w2.toNat = 0 := by omega
      have e3 : x.w3.toNat = 0 := by omega
      simp only [fitsWord, Bool.and_eq_true, beq_iff_eq]
      exact ⟨⟨BitVec.eq_of_toNat_eq e1, BitVec.eq_of_toNat_eq e2⟩, BitVec.eq_of_toNat_eq e3⟩
    rw [if_pos (by simp [hf]), if_neg (by omega)]

theorem mulPrim_spec (cfg : Cfg) (x : U256) (v : W64) :
    (x.toNat * v.toNat < 2 ^ 256 →
      ∃ r, (mulPrim cfg x v : Res ε U256) = .ok r ∧ r.toNat = x.toNat * v.toNat) ∧
    (2 ^ 256 ≤ x.toNat * v.toNat → (mulPrim cfg x v : Res ε U256) = .panic) := by
  obtain ⟨r0, c0, h0, e0⟩ := mulU64_spec (ε := ε) cfg x.w0 v 0
  obtain ⟨r1, c1, h1, e1⟩ := mulU64_spec (ε := ε) cfg x.w1 v c0
  obtain ⟨r2, c2, h2, e2⟩ := mulU64_spec (ε := ε) cfg x.w2 v c1
  obtain ⟨r3, c3, h3, e3⟩ := mulU64_spec (ε := ε) cfg x.w3 v c2
  rw [show BitVec.toNat (0 : W64) = 0 from rfl] at e0
  have e := fullMulU64_arith e0 e1 e2 e3
  have hr : toNat ⟨r0, r1, r2, r3⟩ + 2 ^ 256 * c3.toNat = x.toNat * v.toNat := by
    have ex : x.toNat = x.w0.toNat + 2 ^ 64 * (x.w1.toNat + 2 ^ 64 * (x.w2.toNat + 2 ^ 64 * x.w3.toNat)) := by
      simp only [toNat]; ring
    rw [ex, ← e]; simp only [toNat]; ring
  have hlt := toNat_lt ⟨r0, r1, r2, r3⟩
  have hrun : (mulPrim cfg x v : Res ε U256) =
      if 0 < c3.toNat then .panic else .ok ⟨r0, r1, r2, r3⟩ := by
    simp only [mulPrim, overflowingMulU64, h0, h1, h2, h3, ok_bind]
  rw [hrun]
  constructor
  · intro h
    have : c3.toNat = 0 := by
      by_contra hc
      have := Nat.mul_le_mul_left (2 ^ 256) (Nat.one_le_iff_ne_zero.2 hc)
      omega
    refine ⟨_, by rw [if_neg (by omega)], by rw [← hr, this, Nat.mul_zero, Nat.add_zero]⟩
  · intro h
    have : c3.toNat ≠ 0 := by
      intro hc; rw [hc] at hr; omega
    rw [if_pos (by omega)]

end U256

end Fixnum
