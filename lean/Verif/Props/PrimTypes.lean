import Verif.Sqrt
import Verif.Float

/-! # The primitive integer types of the model and Lean's bit vectors

`IntTy` (C77) and `asU32` (C42 and others) compute with integers; here they are compared with `BitVec`. -/

namespace Fixnum

/-- C77: the ranges and the wrap-around assumed for the primitive types are those of two's complement, for
every width. -/
theorem C77_types (w : Nat) (hw : 0 < w) (z : Int) :
    IntTy.min ⟨true, w⟩ = (BitVec.intMin w).toInt ∧ IntTy.max ⟨true, w⟩ = (BitVec.intMax w).toInt ∧
    IntTy.min ⟨false, w⟩ = (0#w).toNat ∧ IntTy.max ⟨false, w⟩ = (BitVec.allOnes w).toNat ∧
    IntTy.wrap ⟨true, w⟩ z = (BitVec.ofInt w z).toInt ∧
    IntTy.wrap ⟨false, w⟩ z = (BitVec.ofInt w z).toNat := by
  have hp : (0 : Int) < 2 ^ w := by positivity
  refine ⟨?_, ?_, ?_, ?_, ?_, ?_⟩
  · simp [IntTy.min, BitVec.toInt_intMin_of_pos hw]
  · simp [IntTy.max, BitVec.toInt_intMax]
  · simp [IntTy.min]
  · simp [IntTy.max, BitVec.toNat_allOnes]
  · simp [IntTy.wrap, BitVec.toInt_ofInt]
  · simp only [IntTy.wrap, BitVec.toNat_ofInt]
    rw [Int.toNat_of_nonneg (by exact_mod_cast Int.emod_nonneg z hp.ne')]
    simp

example := C77_types 128 (by decide) (-1)
example : IntTy.min ⟨true, 8⟩ = -128 ∧ IntTy.max ⟨true, 8⟩ = 127 ∧ IntTy.max ⟨false, 8⟩ = 255 ∧
    IntTy.wrap ⟨true, 8⟩ 130 = -126 ∧ IntTy.wrap ⟨false, 8⟩ (-1) = 255 := by decide

/-- C42: `as u32` of an `i32` keeps the bits. -/
theorem C42_as_u32 (b : BitVec 32) : asU32 b.toInt = b.toNat := by
  unfold asU32
  have h2 := b.isLt
  have h3 : b.toInt % 2 ^ 32 = (b.toNat : Int) := by
    rw [BitVec.toInt_eq_toNat_cond]
    split <;> push_cast <;> omega
  rw [h3, Int.toNat_natCast]

example : asU32 (-1) = 4294967295 := C42_as_u32 (-1#32)

end Fixnum
