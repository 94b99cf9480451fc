import Verif.U256OpsBasic
import Verif.Props.Rounding

/-!
# Property C79: shifts, small factors and conversions of the private 256-bit type

`U256.toNat` reads the four words as a number (a specification function, see `U256.lean`).
`pw` is the width of `usize`.
-/

namespace Fixnum

open Res

variable {ε : Type}

/-- C79: `x << s`: the bits pushed out are lost, a shift by 256 or more gives zero, and no shift panics
unless the amount does not fit in `usize`. -/
theorem C79_shl (cfg : Cfg) {pw : Nat} (hp : pw ≤ 64) (x s : U256) :
    (s.toNat < 2 ^ pw → ∃ r, (U256.shlBy cfg pw x s : Res ε U256) = .ok r ∧
      r.toNat = x.toNat * 2 ^ s.toNat % 2 ^ 256) ∧
    (2 ^ pw ≤ s.toNat → (U256.shlBy cfg pw x s : Res ε U256) = .panic) := by
  unfold U256.shlBy
  rw [U256.asUsize_spec hp]
  constructor
  · intro h; rw [if_pos h, ok_bind]; exact U256.shl_any cfg x s.toNat
  · intro h; rw [if_neg (by omega)]; rfl

example := C79_shl (ε := Unit) ⟨true, true, true, true⟩ (pw := 32) (by decide) ⟨5, 0, 0, 1⟩
  ⟨70, 0, 0, 0⟩

/-- C79: `x >> s` is the quotient by `2^s`, rounded down. -/
theorem C79_shr (cfg : Cfg) {pw : Nat} (hp : pw ≤ 64) (x s : U256) :
    (s.toNat < 2 ^ pw → ∃ r, (U256.shrBy cfg pw x s : Res ε U256) = .ok r ∧
      r.toNat = x.toNat / 2 ^ s.toNat) ∧
    (2 ^ pw ≤ s.toNat → (U256.shrBy cfg pw x s : Res ε U256) = .panic) := by
  unfold U256.shrBy
  rw [U256.asUsize_spec hp]
  constructor
  · intro h; rw [if_pos h, ok_bind]; exact U256.shr_any cfg x s.toNat
  · intro h; rw [if_neg (by omega)]; rfl

example := C79_shr (ε := Unit) ⟨true, true, true, true⟩ (pw := 32) (by decide) ⟨5, 0, 0, 1⟩
  ⟨70, 0, 0, 0⟩

/-- C79: the product with a `u64` or `usize` is exact or panics, in every build. -/
theorem C79_mul_prim (cfg : Cfg) (x : U256) (v : W64) :
    (x.toNat * v.toNat < 2 ^ 256 →
      ∃ r, (U256.mulPrim cfg x v : Res ε U256) = .ok r ∧ r.toNat = x.toNat * v.toNat) ∧
    (2 ^ 256 ≤ x.toNat * v.toNat → (U256.mulPrim cfg x v : Res ε U256) = .panic) :=
  U256.mulPrim_spec cfg x v

example := C79_mul_prim (ε := Unit) debugCfg ⟨0, 0, 0, 1⟩ 10

/-- C79: it is what the general product gives. -/
theorem C79_mul_prim_general (cfg : Cfg) (x : U256) (v : W64) :
    (U256.mulPrim cfg x v : Res ε U256) = U256.mul cfg x (U256.ofU64 v) := by
  obtain ⟨r, o, h1, h2, h3⟩ := U256.overflowingMul_spec (ε := ε) cfg x (U256.ofU64 v)
  have hm : (U256.mul cfg x (U256.ofU64 v) : Res ε U256) = if o then .panic else .ok r := by
    simp only [U256.mul, h1, ok_bind]
  rw [U256.ofU64_toNat] at h2 h3
  rw [hm, h3]
  by_cases h : x.toNat * v.toNat < 2 ^ 256
  · obtain ⟨q, h4, h5⟩ := (U256.mulPrim_spec (ε := ε) cfg x v).1 h
    rw [h4, if_neg (by simpa using h)]
    rw [Nat.mod_eq_of_lt h] at h2
    exact congrArg _ (U256.toNat_inj (h5.trans h2.symm))
  · rw [(U256.mulPrim_spec (ε := ε) cfg x v).2 (not_lt.1 h), if_pos (by simpa using h)]

example := C79_mul_prim_general (ε := Unit) debugCfg ⟨0, 0, 0, 1⟩ 10

/-- C79: conversions from `u64`, `u32` keep the number; from `i64` likewise, and a negative one panics. -/
theorem C79_from (v : W64) :
    (U256.ofU64 v).toNat = v.toNat ∧
    (0 ≤ v.toInt → ∃ r, (U256.ofI64 v : Res ε U256) = .ok r ∧ (r.toNat : Int) = v.toInt) ∧
    (v.toInt < 0 → (U256.ofI64 v : Res ε U256) = .panic) := by
  refine ⟨U256.ofU64_toNat v, fun h => ⟨U256.ofU64 v, by simp [U256.ofI64, h], ?_⟩, fun h => ?_⟩
  · rw [U256.ofU64_toNat]; have := BitVec.toInt_eq_toNat_cond v; have := v.isLt; omega
  · simp [U256.ofI64, not_le.2 h]

-- 2^200 + 3 shifted by 130 both ways, by 300, and by more than `usize` holds
example : (U256.shlBy releaseCfg 64 ⟨3, 0, 0, 256⟩ (.ofU64 130) : Res Unit _) = .ok ⟨0, 0, 12, 0⟩ ∧
    (U256.shrBy debugCfg 64 ⟨3, 0, 0, 256⟩ (.ofU64 130) : Res Unit _) = .ok ⟨0, 64, 0, 0⟩ ∧
    (U256.shrBy debugCfg 64 ⟨3, 0, 0, 256⟩ (.ofU64 300) : Res Unit _) = .ok ⟨0, 0, 0, 0⟩ ∧
    (U256.shrBy debugCfg 64 ⟨3, 0, 0, 256⟩ ⟨0, 1, 0, 0⟩ : Res Unit _) = .panic ∧
    (U256.mulPrim releaseCfg ⟨3, 0, 0, 256⟩ 10 : Res Unit _) = .ok ⟨30, 0, 0, 2560⟩ ∧
    (U256.mulPrim releaseCfg ⟨3, 0, 0, 256⟩ (-1) : Res Unit _) = .panic := by
  decide +kernel

/-- C79: the constants of the wide type, and that `MIN` and `MAX` are its bounds. -/
theorem C79_constants :
    I256.zero.toInt = 0 ∧ I256.one.toInt = 1 ∧ I256.i128Max.toInt = 2 ^ 127 - 1 ∧
    I256.i128Min.toInt = -2 ^ 127 ∧ I256.u128Max.toInt = 2 ^ 128 - 1 ∧
    I256.min.toInt = -2 ^ 255 ∧ I256.max.toInt = 2 ^ 255 - 1 ∧
    ∀ x : I256, I256.min.toInt ≤ x.toInt ∧ x.toInt ≤ I256.max.toInt := by
  refine ⟨by decide, by decide, by decide, by decide, by decide, by decide, by decide, fun x => ?_⟩
  rw [I256.min_toInt, I256.max_toInt]
  have := I256.toInt_bounds x
  omega

end Fixnum
