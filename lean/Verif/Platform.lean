import Verif.Float

/-!
# The width of `usize`

`Float.lean` fixes `usize` at 64 bits for the two casts `exponent as usize`
(`/repo/src/float.rs:71,146`), whose operand is an `i32` and whose result is an index into a table.
A platform with another width reads the same entry, or panics as well.
-/

namespace Fixnum

open Res

variable {ε : Type}

theorem idx_usize_width {α : Type} (a : List α) (ha : a.length ≤ 2 ^ 31) (z : Int) (hz : Fits 32 z)
    (w : Nat) (hw : 32 ≤ w) :
    (idx a (z % 2 ^ w).toNat : Res ε α) = idx a (asUsize z) := by
  have h := hz
  simp only [Fits, iMin, iMax] at h
  norm_num at h ha
  have key (v : Nat) (hv : 32 ≤ v) :
      (idx a (z % 2 ^ v).toNat : Res ε α) = if 0 ≤ z then idx a z.toNat else .panic := by
    have e : (2 : Int) ^ 32 ≤ 2 ^ v := by exact_mod_cast Nat.pow_le_pow_right (by norm_num) hv
    norm_num at e
    split
    · rw [Int.emod_eq_of_lt (by omega) (by omega)]
    · have : z % 2 ^ v = z + 2 ^ v := by
        rw [← Int.add_emod_right, Int.emod_eq_of_lt (by omega) (by omega)]
      rw [this]
      unfold idx
      rw [List.getElem?_eq_none (by omega)]
  unfold asUsize
  rw [key w hw, key 64 (by norm_num)]

/-- The tables are that small. -/
example : PowerTable.powersOf5.length ≤ 2 ^ 31 ∧ PowerTable.powersOf10.length ≤ 2 ^ 31 := by
  decide +kernel

end Fixnum
