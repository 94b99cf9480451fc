import Verif.Props.Integral
import Verif.Props.Checked
import Verif.FloatOps
import Verif.Strings
import Verif.RsqrtBasic
import Verif.LiteralBasic

/-!
# Property C53, continued: what a precision that is too large for the layout does

The compiler rejects the type only if computing `10^P` overflows the integer it is computed in and
overflow checks are on; otherwise the coefficient is `10^P` modulo `2^BITS`.
-/

namespace Fixnum

open Res Spec

variable {L : Layout} {P : Nat} {ε : Type}

theorem intBits_ge {cfg : Cfg} (hL : L = .i128 → cfg.i128 = true) : L.bits ≤ intBits cfg := by
  unfold intBits
  cases L with
  | i128 => simp [hL rfl, Layout.bits]
  | _ => split <;> simp [Layout.bits]

theorem ofInt_mod (w : Nat) {y z : Int} (h : ((2 : Int) ^ w) ∣ y - z) :
    BitVec.ofInt w y = BitVec.ofInt w z := by
  apply BitVec.eq_of_toInt_eq
  rw [BitVec.toInt_ofInt, BitVec.toInt_ofInt]
  have hm : y % ((2 ^ w : Nat) : Int) = z % ((2 ^ w : Nat) : Int) :=
    Int.emod_eq_emod_iff_emod_sub_eq_zero.2 (Int.emod_eq_zero_of_dvd (by exact_mod_cast h))
  unfold Int.bmod
  rw [hm]

theorem ofInt_toInt_dvd (w : Nat) (z : Int) : ((2 : Int) ^ w) ∣ (BitVec.ofInt w z).toInt - z := by
  rw [BitVec.toInt_ofInt]
  have e : (z.bmod (2 ^ w)) % ((2 ^ w : Nat) : Int) = z % ((2 ^ w : Nat) : Int) := Int.bmod_emod
  have := Int.sub_emod (z.bmod (2 ^ w)) z ((2 ^ w : Nat) : Int)
  rw [e, sub_self, Int.zero_emod] at this
  exact_mod_cast Int.dvd_of_emod_eq_zero this

theorem pow10Loop_wrap (cfg : Cfg) (hc : cfg.overflowChecks = false) (k : Nat) :
    ∀ r : BitVec (intBits cfg),
      (pow10Loop cfg k r : Res ε _) = .ok (BitVec.ofInt _ (r.toInt * 10 ^ k)) := by
  have hb := intBits_pos cfg
  have h10 : (BitVec.ofInt (intBits cfg) 10).toInt = 10 := by
    apply toInt_ofInt_of_fits hb
    unfold intBits Fits iMin iMax; split <;> norm_num
  induction k with
  | zero => intro r; simp [pow10Loop]
  | succ k ih =>
    intro r
    unfold pow10Loop SInt.mul
    rw [h10, SInt.arith_wrap cfg hc, ok_bind, ih]
    congr 1
    apply ofInt_mod
    have h := ofInt_toInt_dvd (intBits cfg) (r.toInt * 10)
    have e : (BitVec.ofInt (intBits cfg) (r.toInt * 10)).toInt * 10 ^ k - r.toInt * 10 ^ (k + 1) =
        ((BitVec.ofInt (intBits cfg) (r.toInt * 10)).toInt - r.toInt * 10) * 10 ^ k := by ring
    rw [e]
    exact Dvd.dvd.mul_right h _

theorem pow10Loop_panic (cfg : Cfg) (hc : cfg.overflowChecks = true) (k : Nat) :
    ∀ r : BitVec (intBits cfg), 0 < r.toInt → iMax (intBits cfg) < r.toInt * 10 ^ k →
      (pow10Loop cfg k r : Res ε _) = .panic := by
  have hb := intBits_pos cfg
  have h10 : (BitVec.ofInt (intBits cfg) 10).toInt = 10 := by
    apply toInt_ofInt_of_fits hb
    unfold intBits Fits iMin iMax; split <;> norm_num
  induction k with
  | zero => intro r _ h; have := (toInt_fits r).2; simp at h; omega
  | succ k ih =>
    intro r h0 h
    unfold pow10Loop SInt.mul
    rw [h10]
    by_cases hf : Fits (intBits cfg) (r.toInt * 10)
    · have e := toInt_ofInt_of_fits hb hf
      rw [SInt.arith_fits cfg hf, ok_bind]
      apply ih
      · rw [e]; omega
      · rw [e]; rw [pow_succ] at h; linarith [h, show r.toInt * (10 ^ k * 10) = r.toInt * 10 * 10 ^ k by ring]
    · rw [SInt.arith_panic cfg hf hc]; rfl

/-- C53: the coefficient of every type in every build: `10^P` reduced to the layout, unless
computing it overflows with overflow checks on, which is a compile error. -/
theorem C53_coef_exact {cfg : Cfg} (hL : L = .i128 → cfg.i128 = true) :
    (coef cfg L P : Res ε _) =
      if cfg.overflowChecks = true ∧ iMax (intBits cfg) < 10 ^ P then .panic
      else .ok (BitVec.ofInt L.bits (10 ^ P)) := by
  have hb := intBits_pos cfg
  have hge := intBits_ge hL
  have castv (z : Int) : SInt.cast L.bits (BitVec.ofInt (intBits cfg) z) = BitVec.ofInt L.bits z := by
    unfold SInt.cast
    apply ofInt_mod
    exact dvd_trans (pow_dvd_pow 2 hge) (ofInt_toInt_dvd _ z)
  have h18 : (BitVec.ofInt (intBits cfg) (10 ^ 18)).toInt = 10 ^ 18 := by
    apply toInt_ofInt_of_fits hb
    unfold intBits; split <;> decide
  unfold coef
  by_cases hP : P < 19
  · have hle : ¬ iMax (intBits cfg) < 10 ^ P := by
      have : (10 : Int) ^ P ≤ 10 ^ 18 := pow_le_pow_right₀ (by norm_num) (by omega)
      unfold intBits iMax; split <;> norm_num <;> omega
    rw [pow10_small cfg hP, ok_bind, castv, if_neg (fun h => hle h.2)]
  · have ep : (10 : Int) ^ 18 * 10 ^ (P - 19 + 1) = 10 ^ P := by
      rw [← pow_add]; congr 1; omega
    have hi : (idx pow10Table 18 : Res ε Int) = .ok (10 ^ 18) := rfl
    unfold pow10
    rw [if_neg hP, hi, ok_bind]
    split
    · rename_i h
      rw [pow10Loop_panic cfg h.1 _ _ (by rw [h18]; norm_num) (by rw [h18, ep]; exact h.2)]
      rfl
    · rename_i h
      by_cases hc : cfg.overflowChecks = true
      · rw [pow10Loop_spec cfg _ _ (by rw [h18]; norm_num)
          (by rw [h18, ep]; by_contra hx; exact h ⟨hc, by omega⟩), h18, ep, ok_bind, castv]
      · rw [pow10Loop_wrap cfg (by simpa using hc), h18, ep, ok_bind, castv]

example := C53_coef_exact (ε := Unit) (cfg := debugCfg) (L := .i16) (P := 5) (by decide)

/-- C53: of the types that compile, exactly those whose coefficient fits have `ONE` equal to one. -/
theorem C53_one_iff {cfg : Cfg} (hL : L = .i128 → cfg.i128 = true) (o : FP L P)
    (h : (FP.one cfg : Res ε (FP L P)) = .ok o) : value o = 1 ↔ (10 : Int) ^ P ≤ rawMax L := by
  have t := ten_pow_ne P
  have e : o.inner = BitVec.ofInt L.bits (10 ^ P) := by
    unfold FP.one at h
    rw [C53_coef_exact hL] at h
    split at h
    · cases h
    · rw [ok_bind] at h; cases h; rfl
  unfold value
  rw [div_eq_one_iff_eq t, e]
  constructor
  · intro hx
    have : (BitVec.ofInt L.bits (10 ^ P)).toInt = 10 ^ P := by exact_mod_cast hx
    rw [← this]
    exact (toInt_fits _).2
  · intro hx
    rw [coef_toInt (cfg := cfg) ⟨hx, hL⟩]; norm_cast

example := C53_one_iff (ε := Unit) (cfg := debugCfg) (L := .i16) (P := 5) (by decide) ⟨-31072⟩
  (by decide +kernel)

theorem coef_zero_iff : BitVec.ofInt L.bits (10 ^ P) = 0 ↔ L.bits ≤ P := by
  have h1 : (BitVec.ofInt L.bits (10 ^ P) = 0) ↔ ((2 : Int) ^ L.bits ∣ 10 ^ P) := by
    constructor
    · intro h
      have := ofInt_toInt_dvd L.bits (10 ^ P)
      rw [h] at this
      simpa using this
    · intro h
      exact ofInt_mod L.bits (y := 10 ^ P) (z := 0) (by simpa using h)
  rw [h1]
  constructor
  · intro h
    have h2 : 2 ^ L.bits ∣ 2 ^ P * 5 ^ P := by
      rw [← Nat.mul_pow]; exact_mod_cast h
    have h3 : Nat.Coprime (2 ^ L.bits) (5 ^ P) := Nat.Coprime.pow _ _ (by decide)
    exact (Nat.pow_dvd_pow_iff_le_right (by norm_num)).1 (h3.dvd_of_dvd_mul_right h2)
  · intro h
    have : (2 : Int) ^ L.bits ∣ 2 ^ P * 5 ^ P := Dvd.dvd.mul_right (pow_dvd_pow 2 h) _
    rwa [← mul_pow] at this

/-- The compiler accepts the type: computing `10^P` does not overflow, or is not checked. -/
def Compiles (cfg : Cfg) (L : Layout) (P : Nat) : Prop :=
  (L = .i128 → cfg.i128 = true) ∧ ¬ (cfg.overflowChecks = true ∧ iMax (intBits cfg) < 10 ^ P)

instance (cfg : Cfg) (L : Layout) (P : Nat) : Decidable (Compiles cfg L P) := by
  unfold Compiles; infer_instance

/-- C53: of the types that compile, exactly those with at least as many digits as the layout has
bits have the coefficient 0. -/
theorem C53_coef_zero_iff {cfg : Cfg} (hc : Compiles cfg L P) :
    (coef cfg L P : Res ε _) = .ok 0 ↔ L.bits ≤ P := by
  rw [C53_coef_exact hc.1, if_neg hc.2, ← coef_zero_iff]
  exact ⟨fun h => by injection h, fun h => by rw [h]⟩

example := C53_coef_zero_iff (ε := Unit) (cfg := debugCfg) (L := .i16) (P := 16) (by decide)

/-- C37: signed division by zero panics for every dividend in every build. -/
theorem C37_signed_div_zero (cfg : Cfg) (x y : I256) (h : y.toInt = 0) :
    (I256.div cfg x y : Res ε I256) = .panic := by
  have hy : y.inner.toNat = 0 := by
    unfold I256.toInt at h
    have := U256.toNat_lt y.inner
    split at h <;> omega
  have hn : y.isNegative = false := by
    rw [I256.isNegative_eq, h]; rfl
  unfold I256.div
  have hd (l : I256) : (U256.div cfg l.inner y.inner : Res ε U256) = .panic :=
    U256.div_zero cfg _ _ hy
  have hx : (I256.negIf cfg x.isNegative x : Res ε I256) = .panic ∨
      ∃ l, (I256.negIf cfg x.isNegative x : Res ε I256) = .ok l := by
    unfold I256.negIf I256.neg debugAssert
    split
    · split
      · exact .inl rfl
      · exact .inr ⟨_, rfl⟩
    · exact .inr ⟨_, rfl⟩
  have hr : (I256.negIf cfg false y : Res ε I256) = .ok y := rfl
  dsimp only
  rw [hn, hr]
  rcases hx with hx | ⟨l, hx⟩ <;> rw [hx]
  · rfl
  · rw [ok_bind, ok_bind, hd]; rfl

example := C37_signed_div_zero (ε := Unit) debugCfg I256.max ⟨⟨0, 0, 0, 0⟩⟩ (by decide)

example : (I256.div ⟨false, false, true, true⟩ I256.max I256.zero : Res Unit I256) = .panic := by
  decide +kernel

theorem prom_div_zero (cfg : Cfg) (x y : (prom L).T) (h : (prom L).toInt y = 0) :
    (prom L).div cfg x y = .panic := by
  cases L with
  | i128 => exact C37_signed_div_zero cfg x y h
  | _ => exact if_pos h

theorem prom_mul_L (cfg : Cfg) (a b : BitVec L.bits) :
    ∃ r, (prom L).mul cfg ((prom L).ofL a) ((prom L).ofL b) = .ok r ∧
      (prom L).toInt r = a.toInt * b.toInt := by
  have S := prom_sound L
  obtain ⟨v, hvv, ev⟩ := S.mul cfg ((prom L).ofL a) ((prom L).ofL b)
    (by rw [S.ofL]; exact lt_of_le_of_lt (abs_le_half _) (half_lt L))
    (by rw [S.ofL]; exact lt_of_le_of_lt (abs_le_half _) (half_lt L))
    (by rw [S.ofL, S.ofL]; exact abs_mul_le_half (abs_le_half _) (abs_le_half _))
  rw [S.ofL, S.ofL] at ev
  exact ⟨v, hvv, ev⟩

/-- C53: with the coefficient 0, the operations that divide by it panic on every operand. -/
theorem C53_zero_panics {cfg : Cfg} (hc : Compiles cfg L P) (hP : L.bits ≤ P) (a b : FP L P)
    (mode : RoundMode) :
    FP.rmul cfg a b mode = .panic ∧ (FP.integral cfg a mode : Res ε _) = .panic ∧
      (FP.toF64 cfg a : Res ε _) = .panic ∧ (FP.display cfg a : Res ε _) = .panic := by
  have z (ε : Type) := (C53_coef_zero_iff (ε := ε) hc).2 hP
  have d (x : BitVec L.bits) (ε : Type) : (SInt.div x 0 : Res ε _) = .panic := by
    unfold SInt.div; rw [if_pos (by simp)]
  refine ⟨?_, ?_, ?_, ?_⟩
  · unfold FP.rmul
    obtain ⟨r, hr, -⟩ := prom_mul_L cfg a.inner b.inner
    rw [z, ok_bind, hr, ok_bind, prom_div_zero _ _ _ (by rw [(prom_sound L).ofL]; simp)]
    rfl
  · unfold FP.integral
    rw [z, ok_bind, d]; rfl
  · unfold FP.toF64
    rw [z, ok_bind, d]; rfl
  · unfold FP.display FP.stringify
    rw [z, ok_bind, d]
    dsimp only
    have hp : (StrBuf.push cfg [] '-' : Res ε _) = .ok ['-'] := by
      have hm : 0 < strBufMaxLen cfg := by unfold strBufMaxLen; split <;> norm_num
      simp [StrBuf.push, debugAssert, hm]
    rw [hp]
    split <;> rfl

example := C53_zero_panics (ε := Unit) (cfg := debugCfg) (L := .i16) (P := 16) (by decide)
  (by decide) ⟨15⟩ ⟨-7⟩ .floor

/-- C53: with the coefficient 0, every integer of the layout converts to 0, quotients are 0 and so
are square roots. -/
theorem C53_zero_collapses {cfg : Cfg} (hc : Compiles cfg L P) (hP : L.bits ≤ P) (a b : FP L P)
    (mode : RoundMode) (n : Int) :
    (Fits L.bits n → FP.tryFromInt cfg n = .ok (FP.zero : FP L P)) ∧
      (b.inner.toInt ≠ 0 → FP.rdiv cfg a b mode = .ok FP.zero) ∧
      (0 ≤ a.inner.toInt → FP.rsqrt cfg a mode = .ok FP.zero) := by
  have S := prom_sound L
  have z (ε : Type) := (C53_coef_zero_iff (ε := ε) hc).2 hP
  have z0 : (0 : BitVec L.bits).toInt = 0 := by simp
  have f0 : Fits L.bits 0 := by have := toInt_fits (0 : BitVec L.bits); rwa [z0] at this
  refine ⟨?_, ?_, ?_⟩
  · intro h
    unfold FP.tryFromInt SInt.tryFrom SInt.checkedMul
    rw [SInt.checked_fits h, ofOption_some, ok_bind, z, ok_bind, z0, mul_zero,
      SInt.checked_fits f0]
    rfl
  · intro h
    unfold FP.rdiv
    rw [if_neg h]
    obtain ⟨n, hn, en⟩ := prom_mul_L cfg a.inner 0
    rw [z0, mul_zero] at en
    obtain ⟨q, t, l, hq, ht, hl, eq, el⟩ := prom_divmod cfg n ((prom L).ofL b.inner)
      (by rw [en]; simp) (by rw [S.ofL]; exact abs_le_half _) (by rw [S.ofL]; exact h)
    rw [en, Int.zero_tdiv] at eq
    rw [en, Int.zero_tmod] at el
    dsimp only
    rw [z, ok_bind, hn, ok_bind, hq, ok_bind, ht, ok_bind, hl, ok_bind,
      S.tryL_some q (by rw [eq]; exact f0), ofOption_some, ok_bind,
      S.tryL_some l (by rw [el]; exact f0), el, eq]
    simp [unwrap, ofOption]
    rfl
  · intro h
    unfold FP.rsqrt
    rw [if_neg (by omega)]
    obtain ⟨n, hn, en⟩ := prom_mul_L cfg a.inner 0
    rw [z0, mul_zero] at en
    obtain ⟨r, hr, er⟩ := S.sqrt cfg n (by rw [en]) (by rw [en]; positivity)
    have er' : (prom L).toInt r = 0 := by rw [er, en]; rfl
    have ht := rsqrtTest_spec cfg mode n r 0 en (by rw [er']; rfl)
      (by have := half_pos L; simp; omega)
    have hu : sqrtUp mode 0 = false := by cases mode <;> rfl
    dsimp only
    rw [z, ok_bind, hn, ok_bind, hr, ok_bind, ht, ok_bind,
      S.tryL_some r (by rw [er']; exact f0), er', hu]
    rfl

example := C53_zero_collapses (cfg := ⟨true, true, true, true⟩) (L := .i16) (P := 16) (by decide)
  (by decide) ⟨7⟩ ⟨-3⟩ .ceil 5

example : Compiles ⟨true, true, true, true⟩ .i16 16 ∧ Layout.i16.bits ≤ 16 := by decide
example : Compiles ⟨false, false, true, true⟩ .i128 128 ∧ Layout.i128.bits ≤ 128 := by decide
example : ¬ Compiles ⟨true, true, true, false⟩ .i16 19 := by decide
example : (coef ⟨true, true, true, true⟩ .i16 5 : Res Unit _) = .ok (-31072) := by decide
example : (coef ⟨false, false, true, true⟩ .i64 20 : Res Unit _) = .ok 7766279631452241920 := by
  decide +kernel

end Fixnum
