import Verif.Ops
import Verif.I256Basic
import Verif.SqrtBasic

/-! # The promotion types compute exactly within their range -/

namespace Fixnum

open Res

/-- What the proofs about fixed-point operations need of a promotion type. -/
structure PromSound {w : Nat} (p : PromOps w) : Prop where
  ofL : ∀ a : BitVec w, p.toInt (p.ofL a) = a.toInt
  mul : ∀ cfg x y, |p.toInt x| < 2 ^ (2 * w - 1) → |p.toInt y| < 2 ^ (2 * w - 1) →
    |p.toInt x * p.toInt y| < 2 ^ (2 * w - 1) →
    ∃ r, p.mul cfg x y = .ok r ∧ p.toInt r = p.toInt x * p.toInt y
  div : ∀ cfg x y, |p.toInt x| < 2 ^ (2 * w - 1) → |p.toInt y| < 2 ^ (2 * w - 1) →
    p.toInt y ≠ 0 → ∃ r, p.div cfg x y = .ok r ∧ p.toInt r = (p.toInt x).tdiv (p.toInt y)
  add : ∀ cfg x y, |p.toInt x + p.toInt y| < 2 ^ (2 * w - 1) →
    ∃ r, p.add cfg x y = .ok r ∧ p.toInt r = p.toInt x + p.toInt y
  sub : ∀ cfg x y, |p.toInt x - p.toInt y| < 2 ^ (2 * w - 1) →
    ∃ r, p.sub cfg x y = .ok r ∧ p.toInt r = p.toInt x - p.toInt y
  tryL_some : ∀ x, Fits w (p.toInt x) → p.tryL x = some (BitVec.ofInt w (p.toInt x))
  tryL_none : ∀ x, ¬ Fits w (p.toInt x) → p.tryL x = none
  sqrt : ∀ cfg x, 0 ≤ p.toInt x → p.toInt x < 2 ^ (2 * w - 2) →
    ∃ r, p.sqrt cfg x = .ok r ∧ p.toInt r = (Nat.sqrt (p.toInt x).toNat : Nat)
  inj : ∀ x y, p.toInt x = p.toInt y → x = y
  one : p.toInt p.one = 1
  eq : ∀ x y, p.eq x y = decide (p.toInt x = p.toInt y)
  ge : ∀ x y, p.ge x y = decide (p.toInt y ≤ p.toInt x)

theorem fits_of_abs {W : Nat} {z : Int} (h : |z| < 2 ^ (W - 1)) : Fits W z := by
  rw [abs_lt] at h
  unfold Fits iMin iMax
  omega

theorem fits_mono {w W : Nat} (h : w ≤ W) {z : Int} (hz : Fits w z) : Fits W z := by
  unfold Fits iMin iMax at *
  have : (2 : Int) ^ (w - 1) ≤ 2 ^ (W - 1) := pow_le_pow_right₀ (by norm_num) (by omega)
  omega

theorem abs_tdiv_le (a b : Int) : |a.tdiv b| ≤ |a| := by
  rw [Int.abs_eq_natAbs, Int.abs_eq_natAbs, Int.natAbs_tdiv]
  exact_mod_cast Nat.div_le_self _ _

theorem primProm_sound (w : Nat) (hw : 0 < w)
    (hs : ∀ cfg (n : Nat), (n : Int) < 2 ^ (2 * w - 2) →
      (sqrtPrim cfg ⟨true, 2 * w⟩ n : Res ArithErr Int) = .ok (Nat.sqrt n : Nat)) :
    PromSound (primProm w (2 * w)) := by
  have hW : 0 < 2 * w := by omega
  constructor
  · intro a
    exact toInt_ofInt_of_fits hW (fits_mono (by omega) (toInt_fits a))
  · intro cfg x y _ _ h
    refine ⟨_, SInt.arith_fits cfg (fits_of_abs h), ?_⟩
    exact toInt_ofInt_of_fits hW (fits_of_abs h)
  · intro cfg (x : BitVec (2 * w)) (y : BitVec (2 * w)) hx _ h0
    change |x.toInt| < _ at hx
    change y.toInt ≠ 0 at h0
    have hf : Fits (2 * w) ((BitVec.toInt x).tdiv (BitVec.toInt y)) :=
      fits_of_abs (lt_of_le_of_lt (abs_tdiv_le _ _) hx)
    refine ⟨_, ?_, toInt_ofInt_of_fits hW hf⟩
    show SInt.div x y = _
    unfold SInt.div
    rw [if_neg h0, if_pos hf]
    rfl
  · intro cfg x y h
    refine ⟨_, SInt.arith_fits cfg (fits_of_abs h), ?_⟩
    exact toInt_ofInt_of_fits hW (fits_of_abs h)
  · intro cfg x y h
    refine ⟨_, SInt.arith_fits cfg (fits_of_abs h), ?_⟩
    exact toInt_ofInt_of_fits hW (fits_of_abs h)
  · intro x h
    exact SInt.checked_fits h
  · intro x h
    exact SInt.checked_not h
  · intro cfg x h0 h1
    change 0 ≤ BitVec.toInt x at h0
    change BitVec.toInt x < _ at h1
    obtain ⟨n, hn⟩ := Int.eq_ofNat_of_zero_le h0
    have hsq := hs cfg n (by rw [← hn]; exact h1)
    refine ⟨BitVec.ofInt (2 * w) (Nat.sqrt n : Nat), ?_, ?_⟩
    · show (sqrtPrim cfg ⟨true, 2 * w⟩ (BitVec.toInt x) >>= _) = _
      rw [hn, hsq, ok_bind]
      rfl
    · show BitVec.toInt (BitVec.ofInt (2 * w) (Nat.sqrt n : Nat)) = _
      have : (primProm w (2 * w)).toInt x = (n : Int) := hn
      rw [this, Int.toNat_natCast]
      apply toInt_ofInt_of_fits hW
      apply fits_of_abs
      rw [abs_of_nonneg (by positivity)]
      have h2 : (Nat.sqrt n : Int) ≤ n := by exact_mod_cast Nat.sqrt_le_self n
      have h3 : (2 : Int) ^ (2 * w - 2) ≤ 2 ^ (2 * w - 1) :=
        pow_le_pow_right₀ (by norm_num) (by omega)
      omega
  · intro x y h
    exact toInt_inj' h
  · show (BitVec.ofInt (2 * w) 1).toInt = 1
    apply toInt_ofInt_of_fits hW
    apply fits_of_abs
    rw [abs_one]
    exact one_lt_pow₀ (by norm_num) (by omega)
  · intro (x : BitVec (2 * w)) (y : BitVec (2 * w))
    show decide (x = y) = decide (BitVec.toInt x = BitVec.toInt y)
    apply decide_eq_decide.2
    exact ⟨fun h => by rw [h], toInt_inj'⟩
  · intro x y; rfl

theorem i256_abs {x : I256} (h : |x.toInt| < 2 ^ 255) : x.toInt ≠ -2 ^ 255 := by
  intro hc
  rw [hc, abs_neg, abs_of_nonneg (by norm_num)] at h
  exact lt_irrefl _ h

theorem abs_lt_split {z b : Int} (h : |z| < b) : -b ≤ z ∧ z < b :=
  ⟨(abs_lt.1 h).1.le, (abs_lt.1 h).2⟩

theorem pow_256 : (2 : Int) ^ (2 * 128 - 1) = 2 ^ 255 := by norm_num

theorem i256_add (x y : I256) (h : |x.toInt + y.toInt| < 2 ^ 255) :
    (I256.add x y).toInt = x.toInt + y.toInt :=
  I256.add_spec x y (abs_lt_split h).1 (abs_lt_split h).2

theorem i256_sub (x y : I256) (h : |x.toInt - y.toInt| < 2 ^ 255) :
    (I256.sub x y).toInt = x.toInt - y.toInt :=
  I256.sub_spec x y (abs_lt_split h).1 (abs_lt_split h).2

theorem i256Prom_mul (cfg : Cfg) (x y : I256) (hx : |x.toInt| < 2 ^ (2 * 128 - 1))
    (hy : |y.toInt| < 2 ^ (2 * 128 - 1)) (h : |x.toInt * y.toInt| < 2 ^ (2 * 128 - 1)) :
    ∃ r, (I256.mul cfg x y : Res ArithErr _) = .ok r ∧ r.toInt = x.toInt * y.toInt := by
  rw [pow_256] at hx hy h
  exact I256.mul_spec cfg x y (i256_abs hx) (i256_abs hy) h

theorem i256Prom_div (cfg : Cfg) (x y : I256) (hx : |x.toInt| < 2 ^ (2 * 128 - 1))
    (hy : |y.toInt| < 2 ^ (2 * 128 - 1)) (h : y.toInt ≠ 0) :
    ∃ r, (I256.div cfg x y : Res ArithErr _) = .ok r ∧ r.toInt = x.toInt.tdiv y.toInt := by
  rw [pow_256] at hx hy
  exact I256.div_spec cfg x y (i256_abs hx) (i256_abs hy) h

theorem i256Prom_add (x y : I256) (h : |x.toInt + y.toInt| < 2 ^ (2 * 128 - 1)) :
    ∃ r, (.ok (I256.add x y) : Res ArithErr _) = .ok r ∧ r.toInt = x.toInt + y.toInt := by
  rw [pow_256] at h
  exact ⟨_, rfl, i256_add x y h⟩

theorem i256Prom_sub (x y : I256) (h : |x.toInt - y.toInt| < 2 ^ (2 * 128 - 1)) :
    ∃ r, (.ok (I256.sub x y) : Res ArithErr _) = .ok r ∧ r.toInt = x.toInt - y.toInt := by
  rw [pow_256] at h
  exact ⟨_, rfl, i256_sub x y h⟩

theorem i256Prom_some (x : I256) (h' : Fits 128 (I256.toInt x)) :
    (match I256.tryToI128 x with | .ok v => some v | _ => none) =
      some (BitVec.ofInt 128 x.toInt) := by
  rw [I256.tryToI128_ok x h']

theorem i256Prom_none (x : I256) (h' : ¬ Fits 128 (I256.toInt x)) :
    (match I256.tryToI128 x with | .ok v => some v | _ => none) = (none : Option (BitVec 128)) := by
  rw [I256.tryToI128_err x h']

theorem i256Prom_eq (x y : I256) : decide (x = y) = decide (I256.toInt x = I256.toInt y) := by
  apply decide_eq_decide.2
  exact ⟨fun h => by rw [h], I256.toInt_inj⟩

theorem i256Prom_ge (x y : I256) :
    decide (I256.cmp x y ≠ .lt) = decide (I256.toInt y ≤ I256.toInt x) := by
  apply decide_eq_decide.2
  rw [I256.cmp_spec, Ne, compare_lt_iff_lt, not_lt]

theorem i256Prom_toInt (x : I256) : i256Prom.toInt x = I256.toInt x := id rfl

theorem i256Prom_one' : i256Prom.one = I256.one := id rfl

theorem i256Prom_one : i256Prom.toInt i256Prom.one = 1 := by
  rw [i256Prom_one', i256Prom_toInt]; exact I256.one_toInt

theorem i256Prom_sound : PromSound i256Prom where
  ofL := I256.fromI128_toInt
  mul := i256Prom_mul
  div := i256Prom_div
  add _ := i256Prom_add
  sub _ := i256Prom_sub
  tryL_some := i256Prom_some
  tryL_none := i256Prom_none
  sqrt cfg x h0 _ := I256.sqrt_spec cfg x h0
  inj _ _ := I256.toInt_inj
  one := i256Prom_one
  eq := i256Prom_eq
  ge := i256Prom_ge

theorem prom_sound (L : Layout) : PromSound (prom L) := by
  cases L
  · refine primProm_sound 16 (by norm_num) fun cfg n hn => ?_
    unfold sqrtPrim
    rw [if_neg (by norm_num)]
    exact sqrtSmall_spec cfg _ (.inr (.inl rfl)) n (by norm_num [IntTy.max] at hn ⊢; omega)
  · refine primProm_sound 32 (by norm_num) fun cfg n hn => ?_
    unfold sqrtPrim
    rw [if_neg (by norm_num)]
    exact sqrtSmall_spec cfg _ (.inr (.inr rfl)) n (by norm_num [IntTy.max] at hn ⊢; omega)
  · refine primProm_sound 64 (by norm_num) fun cfg n hn => ?_
    exact sqrtPrim_i128 cfg n (by exact_mod_cast hn)
  · exact i256Prom_sound

end Fixnum
