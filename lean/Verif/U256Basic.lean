import Verif.U256

/-! # Helper lemmas: carries, products, comparison and conversions of `U256` -/

namespace Fixnum

open Res

variable {ε : Type}

theorem b2w_toNat (b : Bool) : (U256.b2w b).toNat = b.toNat := by cases b <;> rfl

theorem bool_toNat_le (b : Bool) : b.toNat ≤ 1 := by cases b <;> simp

theorem overflowingAdd_spec {w : Nat} (a b : BitVec w) :
    (UInt.overflowingAdd a b).1.toNat + 2 ^ w * (UInt.overflowingAdd a b).2.toNat
      = a.toNat + b.toNat := by
  have ha := a.isLt
  have hb := b.isLt
  simp only [UInt.overflowingAdd, BitVec.toNat_add]
  by_cases h : 2 ^ w ≤ a.toNat + b.toNat
  · simp only [h, decide_true, Bool.toNat_true]
    rw [Nat.mod_eq_sub_mod h, Nat.mod_eq_of_lt (by omega)]; omega
  · simp only [h, decide_false, Bool.toNat_false]
    rw [Nat.mod_eq_of_lt (by omega)]; omega

theorem overflowingSub_spec {w : Nat} (a b : BitVec w) :
    (UInt.overflowingSub a b).1.toNat + b.toNat
      = a.toNat + 2 ^ w * (UInt.overflowingSub a b).2.toNat := by
  have ha := a.isLt
  have hb := b.isLt
  simp only [UInt.overflowingSub, BitVec.toNat_sub]
  by_cases h : a.toNat < b.toNat
  · simp only [h, decide_true, Bool.toNat_true]
    rw [Nat.mod_eq_of_lt (by omega)]; omega
  · simp only [h, decide_false, Bool.toNat_false]
    have : 2 ^ w - b.toNat + a.toNat = (a.toNat - b.toNat) + 2 ^ w := by omega
    rw [this, Nat.add_mod_right, Nat.mod_eq_of_lt (by omega)]; omega

/-- Unsigned `arith` succeeds exactly when the result is in range. -/
theorem UInt.arith_ok (cfg : Cfg) {w : Nat} {z : Int} (h0 : 0 ≤ z) (h1 : z < 2 ^ w) :
    ∃ r : BitVec w, (UInt.arith cfg w z : Res ε (BitVec w)) = .ok r ∧ (r.toNat : Int) = z := by
  refine ⟨BitVec.ofInt w z, ?_, ?_⟩
  · simp [UInt.arith, h0, h1]
  · rw [BitVec.toNat_ofInt]
    have : z % ((2 ^ w : Nat) : Int) = z := Int.emod_eq_of_lt h0 (by push_cast; exact h1)
    rw [this]; omega

theorem UInt.add_ok (cfg : Cfg) {w : Nat} (a b : BitVec w) (h : a.toNat + b.toNat < 2 ^ w) :
    ∃ r : BitVec w, (UInt.add cfg a b : Res ε (BitVec w)) = .ok r ∧
      r.toNat = a.toNat + b.toNat := by
  obtain ⟨r, h1, h2⟩ := UInt.arith_ok (ε := ε) cfg (w := w) (z := a.toNat + b.toNat)
    (by omega) (by exact_mod_cast h)
  exact ⟨r, h1, by exact_mod_cast h2⟩

theorem UInt.mul_ok (cfg : Cfg) {w : Nat} (a b : BitVec w) (h : a.toNat * b.toNat < 2 ^ w) :
    ∃ r : BitVec w, (UInt.mul cfg a b : Res ε (BitVec w)) = .ok r ∧
      r.toNat = a.toNat * b.toNat := by
  obtain ⟨r, h1, h2⟩ := UInt.arith_ok (ε := ε) cfg (w := w) (z := a.toNat * b.toNat)
    (by positivity) (by exact_mod_cast h)
  exact ⟨r, h1, by exact_mod_cast h2⟩

theorem UInt.sub_ok (cfg : Cfg) {w : Nat} (a b : BitVec w) (h : b.toNat ≤ a.toNat) :
    ∃ r : BitVec w, (UInt.sub cfg a b : Res ε (BitVec w)) = .ok r ∧
      r.toNat = a.toNat - b.toNat := by
  have ha := a.isLt
  obtain ⟨r, h1, h2⟩ := UInt.arith_ok (ε := ε) cfg (w := w) (z := a.toNat - b.toNat)
    (by omega) (by have : (a.toNat : Int) < 2 ^ w := by exact_mod_cast ha
                   omega)
  exact ⟨r, h1, by omega⟩

theorem UInt.div_ok {w : Nat} (a b : BitVec w) (h : b.toNat ≠ 0) :
    ∃ r : BitVec w, (UInt.div a b : Res ε (BitVec w)) = .ok r ∧
      r.toNat = a.toNat / b.toNat := by
  refine ⟨BitVec.ofNat w (a.toNat / b.toNat), by simp [UInt.div, h], ?_⟩
  rw [BitVec.toNat_ofNat, Nat.mod_eq_of_lt]
  exact lt_of_le_of_lt (Nat.div_le_self _ _) a.isLt

theorem UInt.shl_ok (cfg : Cfg) {w : Nat} (a : BitVec w) {s : Nat} (h : s < w) :
    ∃ r : BitVec w, (UInt.shl cfg a s : Res ε (BitVec w)) = .ok r ∧
      r.toNat = (a.toNat * 2 ^ s) % 2 ^ w := by
  refine ⟨a <<< s, by simp [UInt.shl, h], ?_⟩
  rw [BitVec.toNat_shiftLeft, Nat.shiftLeft_eq]

theorem UInt.shr_ok (cfg : Cfg) {w : Nat} (a : BitVec w) {s : Nat} (h : s < w) :
    ∃ r : BitVec w, (UInt.shr cfg a s : Res ε (BitVec w)) = .ok r ∧
      r.toNat = a.toNat / 2 ^ s := by
  refine ⟨a >>> s, by simp [UInt.shr, h], ?_⟩
  rw [BitVec.toNat_ushiftRight, Nat.shiftRight_eq_div_pow]

/-- Leading zeros bracket the value. -/
theorem leadingZeros_spec {w : Nat} (a : BitVec w) (h : a.toNat ≠ 0) :
    UInt.leadingZeros a < w ∧ 2 ^ (w - 1 - UInt.leadingZeros a) ≤ a.toNat ∧
      a.toNat < 2 ^ (w - UInt.leadingZeros a) := by
  have hl := a.isLt
  have h1 : Nat.log2 a.toNat < w := (Nat.log2_lt h).2 hl
  have h2 := Nat.log2_self_le h
  have h3 := Nat.lt_log2_self (n := a.toNat)
  simp only [UInt.leadingZeros, h, if_false]
  refine ⟨by omega, ?_, ?_⟩
  · rwa [show w - 1 - (w - 1 - Nat.log2 a.toNat) = Nat.log2 a.toNat by omega]
  · rwa [show w - (w - 1 - Nat.log2 a.toNat) = Nat.log2 a.toNat + 1 by omega]

namespace U256

theorem toNat_lt (x : U256) : x.toNat < 2 ^ 256 := by
  have h0 := x.w0.isLt; have h1 := x.w1.isLt; have h2 := x.w2.isLt; have h3 := x.w3.isLt
  unfold toNat
  omega

theorem toNat_inj {x y : U256} (h : x.toNat = y.toNat) : x = y := by
  have h0 := x.w0.isLt; have h1 := x.w1.isLt; have h2 := x.w2.isLt; have h3 := x.w3.isLt
  have g0 := y.w0.isLt; have g1 := y.w1.isLt; have g2 := y.w2.isLt; have g3 := y.w3.isLt
  unfold toNat at h
  ext1 <;> apply BitVec.eq_of_toNat_eq <;> omega

theorem binopStep_add (a b carry : W64) (hc : carry.toNat ≤ 1) :
    (binopStep UInt.overflowingAdd a b carry).1.toNat
      + 2 ^ 64 * (binopStep UInt.overflowingAdd a b carry).2.toNat
      = a.toNat + b.toNat + carry.toNat ∧
    (binopStep UInt.overflowingAdd a b carry).2.toNat ≤ 1 := by
  have ha := a.isLt; have hb := b.isLt
  unfold binopStep
  by_cases h : carry = 0
  · simp only [h, ne_eq, not_true, if_false]
    have e := overflowingAdd_spec a b
    have l := bool_toNat_le (UInt.overflowingAdd a b).2
    simp only [b2w_toNat]
    constructor
    · simp only [BitVec.ofNat_eq_ofNat, BitVec.toNat_ofNat, Nat.zero_mod]; omega
    · exact l
  · have hc1 : carry.toNat = 1 := by
      have : carry.toNat ≠ 0 := fun h' => h (BitVec.eq_of_toNat_eq (by simpa using h'))
      omega
    simp only [h, ne_eq, not_false_iff, if_true]
    have e1 := overflowingAdd_spec a b
    have e2 := overflowingAdd_spec (UInt.overflowingAdd a b).1 carry
    have l1 := bool_toNat_le (UInt.overflowingAdd a b).2
    have l2 := bool_toNat_le (UInt.overflowingAdd (UInt.overflowingAdd a b).1 carry).2
    have r2 := (UInt.overflowingAdd (UInt.overflowingAdd a b).1 carry).1.isLt
    simp only [BitVec.toNat_add, b2w_toNat]
    constructor <;> omega

theorem binopStep_sub (a b carry : W64) (hc : carry.toNat ≤ 1) :
    (binopStep UInt.overflowingSub a b carry).1.toNat + b.toNat + carry.toNat
      = a.toNat + 2 ^ 64 * (binopStep UInt.overflowingSub a b carry).2.toNat ∧
    (binopStep UInt.overflowingSub a b carry).2.toNat ≤ 1 := by
  have ha := a.isLt; have hb := b.isLt
  unfold binopStep
  by_cases h : carry = 0
  · simp only [h, ne_eq, not_true, if_false]
    have e := overflowingSub_spec a b
    have l := bool_toNat_le (UInt.overflowingSub a b).2
    simp only [b2w_toNat]
    constructor
    · simp only [BitVec.ofNat_eq_ofNat, BitVec.toNat_ofNat, Nat.zero_mod]; omega
    · exact l
  · have hc1 : carry.toNat = 1 := by
      have : carry.toNat ≠ 0 := fun h' => h (BitVec.eq_of_toNat_eq (by simpa using h'))
      omega
    simp only [h, ne_eq, not_false_iff, if_true]
    have e1 := overflowingSub_spec a b
    have e2 := overflowingSub_spec (UInt.overflowingSub a b).1 carry
    have l1 := bool_toNat_le (UInt.overflowingSub a b).2
    have l2 := bool_toNat_le (UInt.overflowingSub (UInt.overflowingSub a b).1 carry).2
    have r1 := (UInt.overflowingSub a b).1.isLt
    have r2 := (UInt.overflowingSub (UInt.overflowingSub a b).1 carry).1.isLt
    simp only [BitVec.toNat_add, b2w_toNat]
    constructor <;> omega

theorem overflowingAdd_spec (x y : U256) :
    (overflowingAdd x y).1.toNat + 2 ^ 256 * (overflowingAdd x y).2.toNat
      = x.toNat + y.toNat := by
  unfold overflowingAdd overflowingBinop
  obtain ⟨e0, l0⟩ := binopStep_add x.w0 y.w0 0 (by decide)
  obtain ⟨e1, l1⟩ := binopStep_add x.w1 y.w1 _ l0
  obtain ⟨e2, l2⟩ := binopStep_add x.w2 y.w2 _ l1
  obtain ⟨e3, l3⟩ := binopStep_add x.w3 y.w3 _ l2
  simp only [toNat]
  rw [show BitVec.toNat (0 : W64) = 0 from rfl] at e0
  generalize binopStep UInt.overflowingAdd x.w0 y.w0 0 = p0 at *
  generalize binopStep UInt.overflowingAdd x.w1 y.w1 p0.2 = p1 at *
  generalize binopStep UInt.overflowingAdd x.w2 y.w2 p1.2 = p2 at *
  generalize binopStep UInt.overflowingAdd x.w3 y.w3 p2.2 = p3 at *
  have : (decide (0 < p3.2.toNat)).toNat = p3.2.toNat := by
    rcases Nat.lt_or_ge 0 p3.2.toNat with h | h
    · simp [h]; omega
    · simp [Nat.not_lt.2 h]; omega
  rw [this]
  omega

theorem overflowingSub_spec (x y : U256) :
    (overflowingSub x y).1.toNat + y.toNat
      = x.toNat + 2 ^ 256 * (overflowingSub x y).2.toNat := by
  unfold overflowingSub overflowingBinop
  obtain ⟨e0, l0⟩ := binopStep_sub x.w0 y.w0 0 (by decide)
  obtain ⟨e1, l1⟩ := binopStep_sub x.w1 y.w1 _ l0
  obtain ⟨e2, l2⟩ := binopStep_sub x.w2 y.w2 _ l1
  obtain ⟨e3, l3⟩ := binopStep_sub x.w3 y.w3 _ l2
  simp only [toNat]
  rw [show BitVec.toNat (0 : W64) = 0 from rfl] at e0
  generalize binopStep UInt.overflowingSub x.w0 y.w0 0 = p0 at *
  generalize binopStep UInt.overflowingSub x.w1 y.w1 p0.2 = p1 at *
  generalize binopStep UInt.overflowingSub x.w2 y.w2 p1.2 = p2 at *
  generalize binopStep UInt.overflowingSub x.w3 y.w3 p2.2 = p3 at *
  have : (decide (0 < p3.2.toNat)).toNat = p3.2.toNat := by
    rcases Nat.lt_or_ge 0 p3.2.toNat with h | h
    · simp [h]; omega
    · simp [Nat.not_lt.2 h]; omega
  rw [this]
  omega

theorem not_toNat (x : U256) : (not x).toNat = 2 ^ 256 - 1 - x.toNat := by
  have h0 := x.w0.isLt; have h1 := x.w1.isLt; have h2 := x.w2.isLt; have h3 := x.w3.isLt
  simp only [not, toNat, BitVec.toNat_not]
  omega

theorem splitU128_spec (a : BitVec 128) :
    (splitU128 a).1.toNat * 2 ^ 64 + (splitU128 a).2.toNat = a.toNat := by
  have ha := a.isLt
  simp only [splitU128, BitVec.toNat_setWidth, BitVec.toNat_ushiftRight, BitVec.toNat_and,
    Nat.shiftRight_eq_div_pow]
  rw [show (0xFFFFFFFFFFFFFFFF#128).toNat = 2 ^ 64 - 1 from rfl, Nat.and_two_pow_sub_one_eq_mod]
  omega

theorem split_spec (a : W64) :
    (split a).1.toNat * 2 ^ 32 + (split a).2.toNat = a.toNat ∧ (split a).2.toNat < 2 ^ 32 := by
  have ha := a.isLt
  simp only [split, BitVec.toNat_ushiftRight, BitVec.toNat_and,
    Nat.shiftRight_eq_div_pow]
  rw [show (0xFFFFFFFF#64).toNat = 2 ^ 32 - 1 from rfl, Nat.and_two_pow_sub_one_eq_mod]
  omega

theorem mul64_ok (cfg : Cfg) (a b : W64) :
    ∃ p : BitVec 128, (UInt.mul cfg (a.setWidth 128) (b.setWidth 128) : Res ε (BitVec 128)) = .ok p
      ∧ p.toNat = a.toNat * b.toNat := by
  have ha := a.isLt; have hb := b.isLt
  have e1 : (a.setWidth 128).toNat = a.toNat := by
    rw [BitVec.toNat_setWidth]; omega
  have e2 : (b.setWidth 128).toNat = b.toNat := by
    rw [BitVec.toNat_setWidth]; omega
  obtain ⟨p, h1, h2⟩ := UInt.mul_ok (ε := ε) cfg (a.setWidth 128) (b.setWidth 128) (by
    rw [e1, e2]
    calc a.toNat * b.toNat < 2 ^ 64 * 2 ^ 64 := Nat.mul_lt_mul'' ha hb
      _ = 2 ^ 128 := by norm_num)
  exact ⟨p, h1, by rw [h2, e1, e2]⟩

/-- Value of a little-endian word list (specification). -/
def valL : List W64 → Nat
  | [] => 0
  | x :: xs => x.toNat + 2 ^ 64 * valL xs

theorem valL_words (x : U256) : valL x.words = x.toNat := by
  simp only [words, valL, toNat]; omega

theorem valL_lt (l : List W64) : valL l < 2 ^ (64 * l.length) := by
  induction l with
  | nil => simp [valL]
  | cons x xs ih =>
    have hx := x.isLt
    simp only [valL, List.length_cons]
    rw [show 64 * (xs.length + 1) = 64 + 64 * xs.length by ring, pow_add]
    nlinarith

theorem valL_set (l : List W64) (k : Nat) (x old : W64) (h : l[k]? = some old) :
    (valL (l.set k x) : Int) = valL l + ((x.toNat : Int) - old.toNat) * 2 ^ (64 * k) := by
  induction l generalizing k with
  | nil => simp at h
  | cons y ys ih =>
    cases k with
    | zero =>
      simp only [List.getElem?_cons_zero, Option.some.injEq] at h
      subst h
      simp only [List.set_cons_zero, valL]
      push_cast; ring
    | succ k =>
      simp only [List.getElem?_cons_succ] at h
      have := ih k h
      simp only [List.set_cons_succ, valL]
      push_cast
      rw [this, show 64 * (k + 1) = 64 + 64 * k by ring, pow_add]
      ring

theorem idx_ok {α : Type} {l : List α} {i : Nat} (h : i < l.length) :
    (idx l i : Res ε α) = .ok l[i] := by
  simp [idx, h]

theorem p64_1 (k : Nat) : (2:Int) ^ (64 * (k + 1)) = 2 ^ 64 * 2 ^ (64 * k) := by
  rw [Nat.mul_add, pow_add, mul_comm]

theorem mulStep_arith (B X V ab hi low r0 r1 A1 A2 hi2 c B1 B2 C1 C2 : Int)
    (e1 : ab = hi * B + low) (e2 : A1 + B * A2 = low + r0) (e3 : hi2 = hi + A2)
    (e4 : B1 + B * B2 = hi2 + c) (e5 : C1 + B * C2 = B1 + r1) :
    V + (A1 - r0) * X + (C1 - r1) * (B * X) + (B2 + C2) * (B * (B * X))
      = V + c * (B * X) + ab * X := by
  rw [e1]
  linear_combination X * (e2 + B * (e3 + e4 + e5))

theorem mulRow_arith (B X V0 V1 V2 V3 m0 m1 m2 m3 b y c0 c1 c2 c3 : Int)
    (e0 : V0 + c0 * (B * (B * X)) = (m0 + m1 * B + m2 * (B * B) + m3 * (B * (B * B))) * y
      + 0 * (B * X) + m0 * b * X)
    (e1 : V1 + c1 * (B * (B * (B * X))) = V0 + c0 * (B * (B * X)) + m1 * b * (B * X))
    (e2 : V2 + c2 * (B * (B * (B * (B * X)))) = V1 + c1 * (B * (B * (B * X)))
      + m2 * b * (B * (B * X)))
    (e3 : V3 + c3 * (B * (B * (B * (B * (B * X))))) = V2 + c2 * (B * (B * (B * (B * X))))
      + m3 * b * (B * (B * (B * X)))) :
    V3 + c3 * (B * (B * (B * (B * (B * X)))))
      = (m0 + m1 * B + m2 * (B * B) + m3 * (B * (B * B))) * (y + b * X) := by
  linear_combination e0 + e1 + e2 + e3

/-- One step of the schoolbook product preserves the value. -/
theorem mulStep_spec (cfg : Cfg) (a b : W64) (k : Nat) (ret : List W64) (carry : W64)
    (hk : k + 1 < ret.length) (hc : carry.toNat ≤ 1) :
    ∃ ret' carry', (mulStep cfg a b k (ret, carry) : Res ε _) = .ok (ret', carry') ∧
      ret'.length = ret.length ∧ carry'.toNat ≤ 1 ∧
      (valL ret' : Int) + carry'.toNat * 2 ^ (64 * (k + 2))
        = valL ret + carry.toNat * 2 ^ (64 * (k + 1)) + a.toNat * b.toNat * 2 ^ (64 * k) := by
  have ha := a.isLt; have hb := b.isLt
  obtain ⟨p, hp, ep⟩ := mul64_ok (ε := ε) cfg a b
  have es := splitU128_spec p
  have hk0 : k < ret.length := by omega
  unfold mulStep
  simp only [hp, ok_bind, idx_ok hk0]
  set hi := (splitU128 p).1
  set low := (splitU128 p).2
  have eA := Fixnum.overflowingAdd_spec low ret[k]
  set A := UInt.overflowingAdd low ret[k]
  have hget : (ret.set k A.1)[k + 1]'(by simpa using hk) = ret[k + 1] := by
    simp [List.getElem_set]
  have hlen : k + 1 < (ret.set k A.1).length := by simpa using hk
  simp only [idx_ok hlen, ok_bind, hget]
  have hhi : hi.toNat ≤ 2 ^ 64 - 2 := by
    have h1 : a.toNat * b.toNat ≤ (2 ^ 64 - 1) * (2 ^ 64 - 1) :=
      Nat.mul_le_mul (by omega) (by omega)
    omega
  have lA := bool_toNat_le A.2
  obtain ⟨hi2, hh2, eh2⟩ := UInt.add_ok (ε := ε) cfg hi (b2w A.2) (by
    rw [b2w_toNat]; omega)
  rw [b2w_toNat] at eh2
  simp only [hh2, ok_bind]
  have eB := Fixnum.overflowingAdd_spec hi2 carry
  set Bp := UInt.overflowingAdd hi2 carry
  have eC := Fixnum.overflowingAdd_spec Bp.1 ret[k + 1]
  set C := UInt.overflowingAdd Bp.1 ret[k + 1]
  have lB := bool_toNat_le Bp.2
  have lC := bool_toNat_le C.2
  have hor : (b2w (Bp.2 || C.2)).toNat = Bp.2.toNat + C.2.toNat := by
    rw [b2w_toNat]
    have r1 := ret[k+1].isLt
    have rC := C.1.isLt
    rcases Bool.eq_false_or_eq_true Bp.2 with h1 | h1
    · rcases Bool.eq_false_or_eq_true C.2 with h2 | h2
      · exfalso
        rw [h1, Bool.toNat_true] at eB
        rw [h2, Bool.toNat_true] at eC
        omega
      · rw [h1, h2]; rfl
    · rw [h1, Bool.false_or]; simp
  refine ⟨_, _, rfl, by simp, ?_, ?_⟩
  · rw [b2w_toNat]; exact bool_toNat_le _
  · have hs1 := valL_set ret k A.1 ret[k] (by simp [hk0])
    have hs2 := valL_set (ret.set k A.1) (k + 1) C.1 ret[k + 1] (by
      rw [List.getElem?_eq_getElem hlen, hget])
    rw [hs2, hs1, hor, show k + 2 = (k + 1) + 1 from rfl, p64_1 (k + 1), p64_1 k]
    rw [Int.natCast_add]
    apply mulStep_arith (2 ^ 64) (2 ^ (64 * k)) (valL ret) (a.toNat * b.toNat) hi.toNat low.toNat
      ret[k].toNat ret[k + 1].toNat A.1.toNat A.2.toNat hi2.toNat carry.toNat Bp.1.toNat Bp.2.toNat
      C.1.toNat C.2.toNat
    · exact_mod_cast (by rw [← ep, es] : a.toNat * b.toNat = hi.toNat * 2 ^ 64 + low.toNat)
    · exact_mod_cast eA
    · exact_mod_cast eh2
    · exact_mod_cast eB
    · exact_mod_cast eC

theorem mulRow_spec (cfg : Cfg) (me : U256) (b : W64) (i : Nat) (ret : List W64)
    (hl : ret.length = 8) (hi : i ≤ 3) (y : Nat) (hv : valL ret = me.toNat * y)
    (hy : y < 2 ^ (64 * i)) :
    ∃ ret', (mulRow cfg me b i ret : Res ε _) = .ok ret' ∧ ret'.length = 8 ∧
      valL ret' = me.toNat * (y + b.toNat * 2 ^ (64 * i)) := by
  obtain ⟨r0, c0, h0, l0, k0, e0⟩ := mulStep_spec (ε := ε) cfg me.w0 b (i + 0) ret 0
    (by omega) (by decide)
  obtain ⟨r1, c1, h1, l1, k1, e1⟩ := mulStep_spec (ε := ε) cfg me.w1 b (i + 1) r0 c0
    (by omega) k0
  obtain ⟨r2, c2, h2, l2, k2, e2⟩ := mulStep_spec (ε := ε) cfg me.w2 b (i + 2) r1 c1
    (by omega) k1
  obtain ⟨r3, c3, h3, l3, k3, e3⟩ := mulStep_spec (ε := ε) cfg me.w3 b (i + 3) r2 c2
    (by omega) k2
  refine ⟨r3, by simp only [mulRow, h0, h1, h2, h3, ok_bind], by omega, ?_⟩
  rw [show (BitVec.toNat (0 : W64)) = 0 from rfl] at e0
  have key : (valL r3 : Int) + c3.toNat * 2 ^ (64 * (i + 5))
      = me.toNat * (y + b.toNat * 2 ^ (64 * i)) := by
    have hm : (me.toNat : Int) = me.w0.toNat + me.w1.toNat * 2 ^ 64
        + me.w2.toNat * (2 ^ 64 * 2 ^ 64) + me.w3.toNat * (2 ^ 64 * (2 ^ 64 * 2 ^ 64)) := by
      simp only [toNat]; push_cast; ring
    have hv' : (valL ret : Int) = me.toNat * y := by exact_mod_cast hv
    have q1 := p64_1 i
    have q2 := p64_1 (i + 1)
    have q3 := p64_1 (i + 1 + 1)
    have q4 := p64_1 (i + 1 + 1 + 1)
    have q5 := p64_1 (i + 1 + 1 + 1 + 1)
    simp only [Nat.add_assoc, Nat.reduceAdd] at e0 e1 e2 e3 q2 q3 q4 q5
    rw [q5, q4, q3, q2, q1, hm]
    rw [q2, q1, hv', hm] at e0
    rw [q3, q2, q1] at e1
    rw [q4, q3, q2, q1] at e2
    rw [q5, q4, q3, q2, q1] at e3
    exact mulRow_arith (2 ^ 64) (2 ^ (64 * i)) _ _ _ _ _ _ _ _ _ _ _ _ _ _ e0 e1 e2 e3
  have hb := b.isLt
  have hbound : me.toNat * (y + b.toNat * 2 ^ (64 * i)) < 2 ^ (64 * (i + 5)) := by
    have q5 : (2:Nat) ^ (64 * (i + 5)) = 2 ^ 256 * (2 ^ 64 * 2 ^ (64 * i)) := by
      rw [show 64 * (i + 5) = 256 + (64 + 64 * i) by ring, pow_add, pow_add]
    rw [q5]
    apply Nat.mul_lt_mul'' (toNat_lt me)
    nlinarith [Nat.pow_pos (n := 64 * i) (by norm_num : 0 < 2)]
  have hc3 : c3.toNat = 0 := by
    by_contra hne
    have : c3.toNat = 1 := by omega
    rw [this] at key
    have : valL r3 + 1 * 2 ^ (64 * (i + 5)) = me.toNat * (y + b.toNat * 2 ^ (64 * i)) := by
      exact_mod_cast key
    omega
  rw [hc3] at key
  have : valL r3 + 0 * 2 ^ (64 * (i + 5)) = me.toNat * (y + b.toNat * 2 ^ (64 * i)) := by
    exact_mod_cast key
  omega

theorem fullMul_spec (cfg : Cfg) (x y : U256) :
    ∃ ret, (fullMul cfg x y : Res ε _) = .ok ret ∧ ret.length = 8 ∧
      valL ret = x.toNat * y.toNat := by
  have b0 := y.w0.isLt; have b1 := y.w1.isLt; have b2 := y.w2.isLt
  obtain ⟨r0, h0, l0, e0⟩ := mulRow_spec (ε := ε) cfg x y.w0 0 [0, 0, 0, 0, 0, 0, 0, 0] rfl
    (by omega) 0 (by simp [valL]) (by norm_num)
  obtain ⟨r1, h1, l1, e1⟩ := mulRow_spec (ε := ε) cfg x y.w1 1 r0 l0 (by omega) _ e0 (by omega)
  obtain ⟨r2, h2, l2, e2⟩ := mulRow_spec (ε := ε) cfg x y.w2 2 r1 l1 (by omega) _ e1 (by omega)
  obtain ⟨r3, h3, l3, e3⟩ := mulRow_spec (ε := ε) cfg x y.w3 3 r2 l2 (by omega) _ e2 (by omega)
  refine ⟨r3, by simp only [fullMul, h0, h1, h2, h3, ok_bind], l3, ?_⟩
  have hy : 0 + y.w0.toNat * 2 ^ (64 * 0) + y.w1.toNat * 2 ^ (64 * 1) + y.w2.toNat * 2 ^ (64 * 2)
      + y.w3.toNat * 2 ^ (64 * 3) = y.toNat := by
    simp only [toNat]; ring
  rw [e3, hy]

theorem valL_append (a b : List W64) :
    valL (a ++ b) = valL a + 2 ^ (64 * a.length) * valL b := by
  induction a with
  | nil => simp [valL]
  | cons x xs ih =>
    simp only [List.cons_append, valL, ih, List.length_cons]
    rw [show 64 * (xs.length + 1) = 64 + 64 * xs.length by ring, pow_add]
    ring

theorem valL_eq_zero {l : List W64} : valL l = 0 ↔ l.any (· != 0) = false := by
  induction l with
  | nil => simp [valL]
  | cons x xs ih =>
    simp only [valL, List.any_cons, Bool.or_eq_false_iff, ← ih]
    constructor
    · intro h
      refine ⟨?_, by omega⟩
      have : x.toNat = 0 := by omega
      have : x = 0 := BitVec.eq_of_toNat_eq (by simpa using this)
      simp [this]
    · rintro ⟨h, h'⟩
      simp only [bne_eq_false_iff_eq] at h
      subst h
      simp [h']

theorem ofWords_ok {l : List W64} (h : l.length = 4) :
    ∃ x : U256, (ofWords l : Res ε U256) = .ok x ∧ x.words = l := by
  match l, h with
  | [a, b, c, d], _ => exact ⟨⟨a, b, c, d⟩, rfl, rfl⟩

/-- `overflowing_mul`: low half and overflow flag of the exact product. -/
theorem overflowingMul_spec (cfg : Cfg) (x y : U256) :
    ∃ r o, (overflowingMul cfg x y : Res ε _) = .ok (r, o) ∧
      r.toNat = x.toNat * y.toNat % 2 ^ 256 ∧
      o = decide (2 ^ 256 ≤ x.toNat * y.toNat) := by
  obtain ⟨ret, h, hl, e⟩ := fullMul_spec (ε := ε) cfg x y
  obtain ⟨r, hr, er⟩ := ofWords_ok (ε := ε) (l := ret.take 4) (by simp [hl])
  refine ⟨r, (ret.drop 4).any (· != 0), by simp only [overflowingMul, h, hr, ok_bind], ?_, ?_⟩
  all_goals
    have hsplit := valL_append (ret.take 4) (ret.drop 4)
    rw [List.take_append_drop, ← er, valL_words, e] at hsplit
    have hlen : r.words.length = 4 := rfl
    rw [hlen] at hsplit
    have hrl := toNat_lt r
  · norm_num only at hsplit ⊢
    omega
  · norm_num only at hsplit hrl
    rcases hb : (ret.drop 4).any (· != 0) with _ | _
    · have := valL_eq_zero.2 hb
      symm; rw [decide_eq_false_iff_not]; norm_num only; omega
    · have : valL (ret.drop 4) ≠ 0 := fun h0 => by
        rw [valL_eq_zero, hb] at h0; exact absurd h0 (by decide)
      symm; rw [decide_eq_true_eq]; norm_num only; omega

theorem mul_spec (cfg : Cfg) (x y : U256) (h : x.toNat * y.toNat < 2 ^ 256) :
    ∃ r, (mul cfg x y : Res ε _) = .ok r ∧ r.toNat = x.toNat * y.toNat := by
  obtain ⟨r, o, h1, h2, h3⟩ := overflowingMul_spec (ε := ε) cfg x y
  have ho : o = false := by rw [h3, decide_eq_false_iff_not]; omega
  subst ho
  refine ⟨r, by simp [mul, h1], ?_⟩
  rw [h2, Nat.mod_eq_of_lt h]

theorem compare_digit (B a b x y : Nat) (ha : a < B) (hb : b < B) :
    (compare x y).then (compare a b) = compare (a + B * x) (b + B * y) := by
  rcases lt_trichotomy x y with h | h | h
  · have h2 : a + B * x < b + B * y := by
      have := Nat.mul_le_mul_left B (Nat.succ_le_of_lt h)
      rw [Nat.succ_eq_add_one, Nat.mul_add] at this; omega
    rw [Nat.compare_eq_lt.2 h, Nat.compare_eq_lt.2 h2]; rfl
  · subst h
    rw [Nat.compare_eq_eq.2 (rfl : x = x)]
    rcases lt_trichotomy a b with h' | h' | h'
    · rw [Nat.compare_eq_lt.2 h', Nat.compare_eq_lt.2 (by omega : a + B * x < b + B * x)]; rfl
    · rw [Nat.compare_eq_eq.2 h', Nat.compare_eq_eq.2 (by omega : a + B * x = b + B * x)]; rfl
    · rw [Nat.compare_eq_gt.2 h', Nat.compare_eq_gt.2 (by omega : b + B * x < a + B * x)]; rfl
  · have h2 : b + B * y < a + B * x := by
      have := Nat.mul_le_mul_left B (Nat.succ_le_of_lt h)
      rw [Nat.succ_eq_add_one, Nat.mul_add] at this; omega
    rw [Nat.compare_eq_gt.2 h, Nat.compare_eq_gt.2 h2]; rfl

theorem cmp_spec (x y : U256) : cmp x y = compare x.toNat y.toNat := by
  have h0 := x.w0.isLt; have h1 := x.w1.isLt; have h2 := x.w2.isLt
  have g0 := y.w0.isLt; have g1 := y.w1.isLt; have g2 := y.w2.isLt
  unfold cmp
  have e1 : ∀ z : U256, z.toNat
      = z.w0.toNat + 2 ^ 64 * (z.w1.toNat + 2 ^ 64 * (z.w2.toNat + 2 ^ 64 * z.w3.toNat)) := by
    intro z; unfold toNat; ring
  rw [e1, e1, ← compare_digit _ _ _ _ _ h0 g0, ← compare_digit _ _ _ _ _ h1 g1,
    ← compare_digit _ _ _ _ _ h2 g2]
  simp only [Ordering.then_assoc]

end U256

end Fixnum
