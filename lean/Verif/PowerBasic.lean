import Verif.IntegralBasic

/-! # `next_power_of_ten`: the tables and the raw-level specification -/

namespace Fixnum

open Res Spec

variable {L : Layout} {P : Nat} {ε : Type}

/-- Entry `t` for numbers with top bit `n`: the least power of ten `≥ 2^n`, or `0` if that exceeds
`m`; `K` is the exponent of the greatest power of ten `≤ m`. -/
def entryCheck (m : Int) (K : Nat) (t : Int) (n : Nat) : Bool :=
  (decide (t = 0) && decide ((10 : Int) ^ K < 2 ^ n) && decide (m < 10 ^ (K + 1))) ||
  (List.range 40).any fun k => decide (t = 10 ^ k) && decide ((2 : Int) ^ n ≤ 10 ^ k) &&
    decide ((10 : Int) ^ k ≤ m) && (decide (k = 0) || decide ((10 : Int) ^ (k - 1) < 2 ^ n))

def tableCheck (w : Nat) (m : Int) (K : Nat) (tab : List Int) : Bool :=
  decide (tab[w]? = some 1) && (List.range w).all fun n =>
    match tab[w - 1 - n]? with
    | some t => entryCheck m K t n
    | none => false

/-- The exponent of the greatest power of ten of each layout. -/
def maxPow : Layout → Nat
  | .i16 => 4
  | .i32 => 9
  | .i64 => 18
  | .i128 => 38

theorem tables_ok (L : Layout) :
    tableCheck L.bits (rawMax L) (maxPow L) (FP.powerTable L) = true := by
  cases L <;> decide +kernel

def Entry (m t : Int) (n : Nat) : Prop :=
  (∃ k : Nat, t = 10 ^ k ∧ (2 : Int) ^ n ≤ 10 ^ k ∧ (10 : Int) ^ k ≤ m ∧
    ∀ j : Nat, (2 : Int) ^ n ≤ 10 ^ j → k ≤ j) ∨
  (t = 0 ∧ ∀ j : Nat, (2 : Int) ^ n ≤ 10 ^ j → m < 10 ^ j)

theorem ten_pow_lt_iff {a b : Nat} : (10 : Int) ^ a < 10 ^ b ↔ a < b :=
  pow_lt_pow_iff_right₀ (by norm_num)

theorem ten_pow_le_iff {a b : Nat} : (10 : Int) ^ a ≤ 10 ^ b ↔ a ≤ b :=
  pow_le_pow_iff_right₀ (by norm_num)

theorem entry_of_check {m t : Int} {K n : Nat} (h : entryCheck m K t n = true) : Entry m t n := by
  unfold entryCheck at h
  rw [Bool.or_eq_true] at h
  rcases h with h | h
  · simp only [Bool.and_eq_true, decide_eq_true_eq] at h
    right
    refine ⟨h.1.1, fun j hj => ?_⟩
    have : K < j := ten_pow_lt_iff.1 (lt_of_lt_of_le h.1.2 hj)
    exact lt_of_lt_of_le h.2 (ten_pow_le_iff.2 this)
  · left
    rw [List.any_eq_true] at h
    obtain ⟨k, _, hk⟩ := h
    simp only [Bool.and_eq_true, Bool.or_eq_true, decide_eq_true_eq] at hk
    refine ⟨k, hk.1.1.1, hk.1.1.2, hk.1.2, fun j hj => ?_⟩
    rcases hk.2 with h0 | h1
    · omega
    · have := ten_pow_lt_iff.1 (lt_of_lt_of_le h1 hj)
      omega

theorem table_entry (L : Layout) {n : Nat} (hn : n < L.bits) :
    ∃ t, (FP.powerTable L)[L.bits - 1 - n]? = some t ∧ Entry (rawMax L) t n := by
  have h := tables_ok L
  unfold tableCheck at h
  rw [Bool.and_eq_true, List.all_eq_true] at h
  have := h.2 n (List.mem_range.2 hn)
  split at this
  · rename_i t ht
    exact ⟨t, ht, entry_of_check this⟩
  · cases this

theorem table_zero (L : Layout) : (FP.powerTable L)[L.bits]? = some 1 := by
  have h := tables_ok L
  unfold tableCheck at h
  rw [Bool.and_eq_true] at h
  simpa using h.1

/-- "The next power of ten of the raw value `x`": `k` is the least exponent with `x ≤ 10^k`. -/
def NextExp (x : Int) (k : Nat) : Prop := x ≤ 10 ^ k ∧ ∀ j : Nat, x ≤ 10 ^ j → k ≤ j

theorem nextExp_exists (x : Int) : ∃ k, NextExp x k := by
  have : ∃ k : Nat, x ≤ 10 ^ k := by
    refine ⟨x.toNat, ?_⟩
    have h1 : x.toNat < 10 ^ x.toNat := Nat.lt_pow_self (by norm_num)
    have h2 : (x.toNat : Int) < 10 ^ x.toNat := by exact_mod_cast h1
    omega
  classical
  exact ⟨Nat.find this, Nat.find_spec this, fun j hj => Nat.find_min' this hj⟩

/-- Choosing between two neighbouring entries. -/
theorem choose_entry {m t t' x : Int} {n : Nat} (h : Entry m t n) (h' : Entry m t' (n + 1))
    (hx : (2 : Int) ^ n ≤ x) (hx' : x < 2 ^ (n + 1)) {k : Nat} (hk : NextExp x k) :
    (if t < x then t' else t) = if (10 : Int) ^ k ≤ m then 10 ^ k else 0 := by
  have hp : (0 : Int) < 2 ^ n := by positivity
  have h2 : (2 : Int) ^ (n + 1) = 2 * 2 ^ n := by ring
  have hkn : (2 : Int) ^ n ≤ 10 ^ k := le_trans hx hk.1
  split
  · rename_i ht
    rcases h with ⟨j, e, hj1, hj2, hj3⟩ | ⟨e, hj⟩
    · -- the power `10^j` is below `x`
      have hjk : j < k := by
        apply ten_pow_lt_iff.1; rw [← e]; exact lt_of_lt_of_le ht hk.1
      have h10 : (10 : Int) ^ (j + 1) ≤ 10 ^ k := ten_pow_le_iff.2 hjk
      have h10' : (10 : Int) ^ (j + 1) = 10 * 10 ^ j := by ring
      rcases h' with ⟨i, e', hi1, hi2, hi3⟩ | ⟨e', hi⟩
      · have hki : k ≤ i := hk.2 i (by omega)
        have hik : i ≤ k := hi3 k (by omega)
        have : i = k := by omega
        subst this
        rw [e', if_pos hi2]
      · rw [e', if_neg (by have := hi k (by omega); omega)]
    · have := hj k hkn
      rw [if_neg (by omega)]
      rcases h' with ⟨i, e', hi1, hi2, hi3⟩ | ⟨e', hi⟩
      · have := hj i (by omega); omega
      · exact e'
  · rename_i ht
    rcases h with ⟨j, e, hj1, hj2, hj3⟩ | ⟨e, hj⟩
    · have h1 : k ≤ j := hk.2 j (by omega)
      have h3 : j ≤ k := hj3 k hkn
      have : j = k := by omega
      subst this
      rw [e, if_pos hj2]
    · omega

theorem toNat_of_nonneg' {w : Nat} (a : BitVec w) (h : 0 ≤ a.toInt) : (a.toNat : Int) = a.toInt := by
  rw [BitVec.toInt_eq_toNat_of_msb]
  by_contra hc
  have hm : a.msb = true := by simpa using hc
  have := BitVec.toInt_neg_of_msb_true hm
  omega

theorem nextPowerOfTenNonneg_spec (a : FP L P) (ha : 0 ≤ a.inner.toInt) {k : Nat}
    (hk : NextExp a.inner.toInt k) :
    FP.nextPowerOfTenNonneg a = if (10 : Int) ^ k ≤ rawMax L then
      .ok ⟨BitVec.ofInt _ (10 ^ k)⟩ else .err .overflow := by
  have hb := bits_ge L
  have hN := toNat_of_nonneg' a.inner ha
  have fa := (toInt_fits a.inner).2
  unfold FP.nextPowerOfTenNonneg
  have hlast : ∀ v : Int, v = (if (10 : Int) ^ k ≤ rawMax L then 10 ^ k else 0) →
      (if v = 0 then (.err .overflow : Res ArithErr (FP L P))
        else .ok (FP.fromBits (BitVec.ofInt _ v))) =
      if (10 : Int) ^ k ≤ rawMax L then .ok ⟨BitVec.ofInt _ (10 ^ k)⟩ else .err .overflow := by
    intro v hv
    have hp : (0 : Int) < 10 ^ k := by positivity
    split at hv <;> rename_i hc
    · rw [if_neg (by omega), hv, if_pos hc]; rfl
    · rw [if_pos hv, if_neg hc]
  by_cases h0 : a.inner.toNat = 0
  · have hz : a.inner.toInt = 0 := by omega
    have hk0 : k = 0 := by have := hk.2 0 (by rw [hz]; norm_num); omega
    have hlz : SInt.leadingZeros a.inner = L.bits := by unfold SInt.leadingZeros; rw [if_pos h0]
    dsimp only
    rw [hlz]
    have h1 : (rustAssert (decide (0 < L.bits)) : Res ArithErr Unit) = .ok () := by
      rw [decide_eq_true (by omega)]; rfl
    have h2 : (idx (FP.powerTable L) L.bits : Res ArithErr Int) = .ok 1 := by
      unfold idx; rw [table_zero]
    rw [h1, ok_bind, h2, ok_bind, hz, if_neg (by norm_num), ok_bind]
    apply hlast
    have := half_pos L
    rw [hk0, rawMax_half, pow_zero, if_pos (by omega)]
  · set n := Nat.log2 a.inner.toNat with hn
    have hn1 : 2 ^ n ≤ a.inner.toNat := Nat.log2_self_le h0
    have hn2 : a.inner.toNat < 2 ^ (n + 1) := Nat.lt_log2_self
    have hn1' : (2 : Int) ^ n ≤ a.inner.toInt := by rw [← hN]; exact_mod_cast hn1
    have hn2' : a.inner.toInt < (2 : Int) ^ (n + 1) := by rw [← hN]; exact_mod_cast hn2
    have hnw : n + 1 < L.bits := by
      have h1 : (2 : Int) ^ n < 2 ^ (L.bits - 1) := by unfold iMax at fa; omega
      have h2 : n < L.bits - 1 := (pow_lt_pow_iff_right₀ (by norm_num : (1 : Int) < 2)).1 h1
      omega
    have hlz : SInt.leadingZeros a.inner = L.bits - 1 - n := by
      unfold SInt.leadingZeros; rw [if_neg h0]
    obtain ⟨t, ht, et⟩ := table_entry L (n := n) (by omega)
    obtain ⟨t', ht', et'⟩ := table_entry L (n := n + 1) hnw
    have hch := choose_entry et et' hn1' hn2' hk
    dsimp only
    rw [hlz]
    have h1 : (rustAssert (decide (0 < L.bits - 1 - n)) : Res ArithErr Unit) = .ok () := by
      rw [decide_eq_true (by omega)]; rfl
    have h2 : (idx (FP.powerTable L) (L.bits - 1 - n) : Res ArithErr Int) = .ok t := by
      unfold idx; rw [ht]
    have h3 : (idx (FP.powerTable L) (L.bits - 1 - n - 1) : Res ArithErr Int) = .ok t' := by
      unfold idx; rw [show L.bits - 1 - n - 1 = L.bits - 1 - (n + 1) by omega, ht']
    rw [h1, ok_bind, h2, ok_bind, h3]
    rw [ok_bind, ok_bind]
    have h4 := hlast _ hch
    split at h4 <;> rename_i hc
    · rw [if_pos hc]; exact h4
    · rw [if_neg hc]; exact h4

end Fixnum
