import Mathlib.Tactic.Linarith
import Mathlib.Tactic.Ring
import Mathlib.Tactic.Positivity
import Mathlib.Tactic.NormNum

/-!
# Multiples that avoid an interval modulo `M`

A decision procedure, of the kind of Euclid's algorithm, for "no `m < N` has `A·m` modulo `M` in
`[l, r]`".  Not a model of any code: it is used to show that no `f64` lies so close to a rounding
boundary that the truncations of `/repo/src/float.rs:92-129` matter.
-/

namespace Fixnum.Hits

/-- No multiple `A·m`, `m < N`, is congruent to a number in `[l, r]` modulo `M`. -/
def NoHit (A M l r N : Nat) : Prop :=
  ∀ m : Nat, m < N → ∀ y : Int, ¬ ((l : Int) ≤ A * m - M * y ∧ (A : Int) * m - M * y ≤ r)

/-- The procedure; `fuel` bounds the number of steps. -/
def noHit : Nat → Nat → Nat → Nat → Nat → Nat → Bool
  | 0, _, _, _, _, N => decide (N ≤ 1)
  | fuel + 1, A, M, l, r, N =>
    if N ≤ 1 then true
    else if A = 0 then true
    else if l / A = r / A ∧ l % A ≠ 0 then
      noHit fuel (M % A) A (A - r % A) (A - l % A) (A * (N - 1) / M + 1)
    else decide (N ≤ (l + A - 1) / A)

theorem NoHit.trivial {A M l r N : Nat} (hl : 0 < l) (hr : r < M) (h : N ≤ 1 ∨ A = 0) :
    NoHit A M l r N := by
  intro m hm y ⟨h1, h2⟩
  have e : (A : Int) * m = 0 := by
    rcases h with h | h
    · have : m = 0 := by omega
      rw [this]; simp
    · rw [h]; simp
  rw [e] at h1 h2
  have hM : (0 : Int) < M := by omega
  rcases lt_trichotomy y 0 with hy | hy | hy
  · nlinarith
  · rw [hy] at h1; omega
  · nlinarith

theorem NoHit.first {A M l r N : Nat} (hl : l ≤ r) (hr : r < M) (hA : 0 < A)
    (h : N ≤ (l + A - 1) / A) : NoHit A M l r N := by
  intro m hm y ⟨h1, h2⟩
  have h3 : A * m < l := by
    have h4 : A * (m + 1) ≤ l + A - 1 := by
      calc A * (m + 1) ≤ A * ((l + A - 1) / A) := Nat.mul_le_mul_left _ (by omega)
        _ ≤ _ := Nat.mul_div_le _ _
    rw [Nat.mul_add, Nat.mul_one] at h4
    omega
  have h5 : (A : Int) * m < l := by exact_mod_cast h3
  have h6 : (0 : Int) ≤ (A : Int) * m := by positivity
  have hM : (0 : Int) < M := by omega
  rcases lt_trichotomy y 0 with hy | hy | hy
  · nlinarith
  · rw [hy] at h1; omega
  · nlinarith

theorem NoHit.step {A M l r N : Nat} (hr : r < M) (hA : 0 < A)
    (h1 : l / A = r / A) (hN : 1 < N)
    (h : NoHit (M % A) A (A - r % A) (A - l % A) (A * (N - 1) / M + 1)) : NoHit A M l r N := by
  intro m hm y ⟨g1, g2⟩
  have hM : (0 : Int) < M := by omega
  have hAm : (0 : Int) ≤ (A : Int) * m := by positivity
  have hy : 0 ≤ y := by
    by_contra hc
    have : y ≤ -1 := by omega
    nlinarith
  obtain ⟨n, rfl⟩ := Int.eq_ofNat_of_zero_le hy
  have hn : n < A * (N - 1) / M + 1 := by
    rw [Nat.lt_succ_iff, Nat.le_div_iff_mul_le (by omega)]
    have k1 : (n : Int) * M ≤ A * m := by nlinarith
    have k2 : n * M ≤ A * m := by exact_mod_cast k1
    exact k2.trans (Nat.mul_le_mul_left _ (by omega))
  have el := Nat.div_add_mod l A
  have er := Nat.div_add_mod r A
  have eM := Nat.div_add_mod M A
  have ll := Nat.mod_lt l hA
  have lr := Nat.mod_lt r hA
  refine h n hn ((m : Int) - (M / A : Nat) * n - (l / A : Nat) - 1) ?_
  have c1 : ((A - r % A : Nat) : Int) = A - (r % A : Nat) := by omega
  have c2 : ((A - l % A : Nat) : Int) = A - (l % A : Nat) := by omega
  rw [c1, c2]
  rw [← h1] at er
  generalize l / A = s at *
  generalize M / A = c at *
  generalize M % A = M0 at *
  generalize l % A = l0 at *
  generalize r % A = r0 at *
  subst el
  subst er
  subst eM
  push_cast at *
  constructor <;> nlinarith

theorem noHit_sound : ∀ (fuel A M l r N : Nat), 0 < l → l ≤ r → r < M →
    noHit fuel A M l r N = true → NoHit A M l r N
  | 0, A, M, l, r, N, hl, _, hr, h => by
    unfold noHit at h
    exact NoHit.trivial hl hr (.inl (of_decide_eq_true h))
  | fuel + 1, A, M, l, r, N, hl, hlr, hr, h => by
    unfold noHit at h
    split at h
    · rename_i h1; exact NoHit.trivial hl hr (.inl h1)
    rename_i hN
    split at h
    · rename_i h1; exact NoHit.trivial hl hr (.inr h1)
    rename_i hA
    have hA : 0 < A := Nat.pos_of_ne_zero hA
    split at h
    · rename_i h1
      obtain ⟨h1, h2⟩ := h1
      have ll := Nat.mod_lt l hA
      have lr := Nat.mod_lt r hA
      have el := Nat.div_add_mod l A
      have er := Nat.div_add_mod r A
      rw [← h1] at er
      refine NoHit.step hr hA h1 (by omega) ?_
      exact noHit_sound fuel _ _ _ _ _ (by omega) (by omega) (by omega) h
    · exact NoHit.first hlr hr hA (of_decide_eq_true h)

/-! ## The boundaries of the conversion -/

/-- For `5^k/2^j`: no multiple by less than `2^53` has its fractional part just above 4/9. -/
def tieFree (k j : Nat) : Bool :=
  let M := 2 ^ j
  let lo := 4 * M / 9 + 1
  let hi := (4 * M * 2 ^ 61 + 9 * M) / (9 * 2 ^ 61)
  decide (hi < lo) || (decide (hi < M) && noHit 200 (5 ^ k % M) M lo hi (2 ^ 53))

/-- For `5^k/2^j`: no multiple is just above `2^52`. -/
def edgeFree (k j : Nat) : Bool :=
  decide (2 ^ (52 + j) * (2 ^ 112 + 1) < (2 ^ (52 + j) / 5 ^ k + 1) * 5 ^ k * 2 ^ 112)

theorem tieFree_table : ∀ k : Fin 56, ∀ i : Fin 7,
    k.val = 0 ∨ tieFree k (Nat.log2 (10 ^ k.val) + i - k) = true := by decide +kernel

theorem edgeFree_table : ∀ k : Fin 56, ∀ i : Fin 12, k.val = 0 ∨
    edgeFree k (Nat.log2 (10 ^ k.val) + i - 3 - k) = true := by decide +kernel

end Fixnum.Hits
