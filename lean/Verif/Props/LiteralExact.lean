import Verif.Props.Literal

/-!
# C34 exactly: when a literal compiles; C74: the precision argument of the macro

`C34_compiles_iff` and `C34_compiles_release_iff` determine for every well-formed literal whether
`fixnum_const!` compiles, in builds of the crate with and without overflow checks.
-/

namespace Fixnum

open Res Spec

variable {L : Layout} {P : Nat} {ε : Type}

theorem intDigits_lt (cfg : Cfg) : iMax (intBits cfg) < 10 ^ intDigits cfg := by
  unfold iMax intBits intDigits; split <;> norm_num

/-- With overflow checks only short digit strings are evaluated. -/
theorem parseIntLoop_len {cfg : Cfg} (ho : cfg.overflowChecks = true) {bs : List Nat}
    {acc v : BitVec (intBits cfg)} (h : (parseIntLoop cfg bs acc : Res ε _) = .ok v) :
    bs.length ≤ intDigits cfg := by
  rcases bs with _ | ⟨b, bs⟩
  · exact Nat.zero_le _
  · unfold parseIntLoop at h
    obtain ⟨dv, h1, k1⟩ := bind_ok_inv h
    obtain ⟨p, h2, k2⟩ := bind_ok_inv k1
    have hp := approx_pow ho h2
    have hf := (toInt_fits p).2
    rw [hp] at hf
    by_contra hn
    rw [List.length_cons] at hn
    have h3 : (10 : Int) ^ intDigits cfg ≤ 10 ^ bs.length :=
      pow_le_pow_right₀ (by norm_num) (by omega)
    have := intDigits_lt cfg
    omega

/-- With overflow checks the magnitude itself must be an `Int`. -/
theorem fixnumConst_only {cfg : Cfg} (ho : cfg.overflowChecks = true) (hv : Valid cfg L P)
    {l : Literal} (hl : l.int ≠ []) {x : FP L P}
    (h : (fixnumConst cfg L P (literalBytes l) : Res ε _) = .ok x) :
    l.fracDigits.length ≤ P ∧ l.int.length ≤ intDigits cfg ∧
      rawMag P (natOf l.int) l.fracDigits ≤ iMax (intBits cfg) := by
  have hw := intBits_pos cfg
  have hc := ten_pow_int_fits hv (le_refl P)
  have h0 : Approx cfg (BitVec.ofInt (intBits cfg) 0) 0 :=
    approx_ofInt hw (small_fits cfg (by norm_num) (by norm_num))
  unfold fixnumConst at h
  rw [pow10_fits hc, ok_bind] at h
  obtain ⟨v, h1, h2⟩ := bind_ok_inv h
  rw [literalBytes_eq, parseFixed_parts cfg (split_literal hl)] at h1
  unfold Literal.fracDigits
  unfold parseFixedParts at h1
  rcases hlf : l.frac with _ | g
  · rw [hlf] at h1
    simp only [Option.map_none] at h1
    obtain ⟨i, h3, k3⟩ := bind_ok_inv h1
    obtain ⟨t, h4, k4⟩ := bind_ok_inv k3
    have hlen := parseIntLoop_len ho h3
    rw [List.length_map] at hlen
    obtain ⟨ds, e, hi⟩ := parseIntLoop_inv _ digitByte_lt h0 h3
    rw [← digitByte_map_inj e, zero_add] at hi
    have e1 := (mul_approx hw (mul_approx hw (sgn_approx cfg l.sign) hi h4)
      (approx_ofInt hw hc) k4).2 ho
    have e2 := toInt_fits v
    have e3 := (toInt_fits i).2
    rw [hi.2 ho] at e3
    rw [e1] at e2
    refine ⟨by simp, hlen, ?_⟩
    have hr : rawMag P (natOf l.int) [] = natOf l.int * 10 ^ P := by simp [rawMag, natOf]
    rw [Option.getD_none, hr]
    rcases sgn_cases l.sign with hs | hs <;> rw [hs] at e2
    · rw [one_mul] at e2; exact e2.2
    · have e4 := e2.1
      rw [neg_one_mul, neg_mul] at e4
      have e5 : (natOf l.int : Int) * 10 ^ P ≤ 2 ^ (intBits cfg - 1) := by
        unfold iMin at e4; linarith
      rcases lt_or_eq_of_le e5 with e6 | e6
      · unfold iMax; omega
      · exfalso
        rcases Nat.eq_zero_or_pos P with hP | hP
        · subst hP
          rw [pow_zero, mul_one] at e6
          unfold iMax at e3
          omega
        · have d1 : (5 : Int) ∣ 2 ^ (intBits cfg - 1) := by
            rw [← e6]
            exact Dvd.dvd.mul_left (dvd_trans (by norm_num) (dvd_pow_self 10 (by omega))) _
          have d2 : ¬ (5 : Int) ∣ 2 ^ (intBits cfg - 1) := by
            rcases intBits_cases cfg with e | e <;> rw [e] <;> norm_num
          exact d2 d1
  · rw [hlf] at h1
    simp only [Option.map_some] at h1
    obtain ⟨i, h3, k3⟩ := bind_ok_inv h1
    obtain ⟨e, h4, k4⟩ := bind_ok_inv k3
    obtain ⟨u, h5, k5⟩ := bind_ok_inv k4
    obtain ⟨f, h6, k6⟩ := bind_ok_inv k5
    obtain ⟨fi, h7, k7⟩ := bind_ok_inv k6
    obtain ⟨t, h8, k8⟩ := bind_ok_inv k7
    obtain ⟨ff, h9, k9⟩ := bind_ok_inv k8
    obtain ⟨s, h10, k10⟩ := bind_ok_inv k9
    have hlen := parseIntLoop_len ho h3
    rw [List.length_map] at hlen h4
    obtain ⟨ds, e1, hi⟩ := parseIntLoop_inv _ digitByte_lt h0 h3
    obtain ⟨fs, e2, hf⟩ := parseIntLoop_inv _ digitByte_lt h0 h6
    rw [← digitByte_map_inj e1, zero_add] at hi
    rw [← digitByte_map_inj e2, zero_add] at hf
    have he := approx_pow ho h4
    have hcc := toInt_ofInt_of_fits hw hc
    have hle : e.toInt ≤ (BitVec.ofInt (intBits cfg) (10 ^ P)).toInt := by
      unfold constAssert at h5
      by_contra hn
      rw [decide_eq_false hn] at h5
      cases h5
    rw [he, hcc] at hle
    have hg : g.length ≤ P := by
      by_contra hn
      have : (10 : Int) ^ P < 10 ^ g.length := pow_lt_pow_right₀ (by norm_num) (by omega)
      omega
    have ht : Approx cfg t (((10 : Int) ^ P).tdiv (10 ^ g.length)) := by
      unfold SInt.div at h8
      rw [he, hcc] at h8
      split at h8
      · cases h8
      · split at h8
        · rename_i hfit
          cases h8
          exact approx_ofInt hw hfit
        · cases h8
    have hs := (add_approx hw (mul_approx hw hi (approx_ofInt hw hc) h7)
      (mul_approx hw ht hf h9) h10).2 ho
    rw [parts_raw _ hg] at hs
    rw [Option.getD_some]
    exact ⟨hg, hlen, by rw [← hs]; exact (toInt_fits s).2⟩

theorem abs_denote (l : Literal) (h : l.fracDigits.length ≤ P) :
    |l.denote| * 10 ^ P = (rawMag P (natOf l.int) l.fracDigits : ℚ) := by
  have hn : 0 ≤ rawMag P (natOf l.int) l.fracDigits := by
    unfold rawMag
    rw [if_pos h]
    positivity
  have hn' : (0 : ℚ) ≤ rawMag P (natOf l.int) l.fracDigits := by exact_mod_cast hn
  rw [← rawMag_denote l h, abs_div, abs_of_pos (by positivity : (0 : ℚ) < 10 ^ P),
    div_mul_cancel₀ _ (by positivity)]
  push_cast
  rw [abs_mul, abs_of_nonneg hn']
  rcases sgn_cases l.sign with e | e <;> rw [e] <;> norm_num

/-- C34 exactly, with overflow checks: a literal compiles if and only if it has at most `P`
fractional digits, not more integral digits (counting leading zeros) than the largest `Int`, and
its raw magnitude is at most `Int::MAX`. -/
theorem C34_compiles_iff {cfg : Cfg} (ho : cfg.overflowChecks = true) (hv : Valid cfg L P)
    (l : Literal) (hl : l.WellFormed) :
    (∃ x : FP L P, (fixnumConst cfg L P (l.text.map Char.toNat) : Res ε _) = .ok x) ↔
      l.fracDigits.length ≤ P ∧ l.int.length ≤ (if cfg.i128 = true then 39 else 19) ∧
      |l.denote| * 10 ^ P ≤ 2 ^ (if cfg.i128 = true then 127 else 63) - 1 := by
  have hw : iMax (intBits cfg) = 2 ^ (if cfg.i128 = true then 127 else 63) - 1 := by
    unfold iMax intBits; split <;> rfl
  have hq : ((iMax (intBits cfg) : Int) : ℚ) = 2 ^ (if cfg.i128 = true then 127 else 63) - 1 := by
    rw [hw]; push_cast; rfl
  rw [show l.text.map Char.toNat = literalBytes l from rfl]
  constructor
  · rintro ⟨x, h⟩
    obtain ⟨h1, h2, h3⟩ := fixnumConst_only ho hv hl.1 h
    refine ⟨h1, h2, ?_⟩
    rw [abs_denote l h1, ← hq]
    exact_mod_cast h3
  · rintro ⟨h1, h2, h3⟩
    rw [abs_denote l h1, ← hq] at h3
    have h3 : rawMag P (natOf l.int) l.fracDigits ≤ iMax (intBits cfg) := by exact_mod_cast h3
    refine fixnumConst_fits hv hl.1 h1 h2 ⟨?_, h3⟩
    have h4 : 0 ≤ rawMag P (natOf l.int) l.fracDigits := by
      unfold rawMag
      rw [if_pos h1]
      positivity
    have : (0 : Int) < 2 ^ (intBits cfg - 1) := by positivity
    unfold iMin
    linarith

example := C34_compiles_iff (ε := Unit) (L := .i64) (P := 9) (cfg := ⟨true, true, true, true⟩) rfl (by decide +kernel)
  ⟨some true, [1, 2], some [3, 4]⟩ ⟨by simp, by simp⟩

example : (⟨true, true, true, true⟩ : Cfg).overflowChecks = true ∧
    Valid ⟨true, true, true, true⟩ .i64 9 ∧
    Literal.WellFormed ⟨some true, [1, 2], some [3, 4]⟩ :=
  ⟨rfl, by decide +kernel, by simp, by simp⟩

/-- C34 exactly, without overflow checks: a literal compiles if and only if it has no point, or the
power of ten for its fractional digits, wrapped to `Int`, is not zero and at most `10^P`. -/
theorem C34_compiles_release_iff {cfg : Cfg} (ho : cfg.overflowChecks = false)
    (hv : Valid cfg L P) (l : Literal) (hl : l.WellFormed) :
    (∃ x : FP L P, (fixnumConst cfg L P (l.text.map Char.toNat) : Res ε _) = .ok x) ↔
      l.frac = none ∨
      (((10 : Int) ^ l.fracDigits.length).bmod (2 ^ (if cfg.i128 = true then 128 else 64)) ≠ 0 ∧
       ((10 : Int) ^ l.fracDigits.length).bmod (2 ^ (if cfg.i128 = true then 128 else 64)) ≤ 10 ^ P)
      := by
  have hw := intBits_pos cfg
  have hc := ten_pow_int_fits hv (le_refl P)
  have hcc := toInt_ofInt_of_fits hw hc
  have hb : ∀ k : Nat, (BitVec.ofInt (intBits cfg) (10 ^ k)).toInt =
      ((10 : Int) ^ k).bmod (2 ^ (if cfg.i128 = true then 128 else 64)) := by
    intro k; rw [BitVec.toInt_ofInt]; rfl
  rw [show l.text.map Char.toNat = literalBytes l from rfl]
  unfold fixnumConst
  rw [pow10_fits hc, ok_bind, literalBytes_eq, parseFixed_parts cfg (split_literal hl.1)]
  obtain ⟨i, hi⟩ := parseIntLoop_wrap (ε := ε) ho l.int (BitVec.ofInt _ 0)
  unfold parseFixedParts
  unfold Literal.fracDigits
  rcases hlf : l.frac with _ | g
  · simp only [Option.map_none]
    unfold SInt.mul
    rw [hi, ok_bind, SInt.arith_wrap cfg ho, ok_bind, SInt.arith_wrap cfg ho, ok_bind]
    exact ⟨fun _ => .inl trivial, fun _ => ⟨_, rfl⟩⟩
  · obtain ⟨f, hf⟩ := parseIntLoop_wrap (ε := ε) ho g (BitVec.ofInt _ 0)
    simp only [Option.map_some, Option.getD_some, reduceCtorEq, false_or]
    unfold SInt.mul SInt.div SInt.add
    rw [hi, ok_bind, List.length_map, pow10_wrap ho, ok_bind, hcc, hb]
    by_cases h1 : ((10 : Int) ^ g.length).bmod (2 ^ (if cfg.i128 = true then 128 else 64)) ≤ 10 ^ P
    · rw [decide_eq_true h1, constAssert_true, ok_bind, hf, ok_bind, SInt.arith_wrap cfg ho, ok_bind]
      by_cases h2 : ((10 : Int) ^ g.length).bmod (2 ^ (if cfg.i128 = true then 128 else 64)) = 0
      · rw [if_pos h2]
        constructor
        · rintro ⟨x, h⟩; cases h
        · intro h; exact absurd h2 h.1
      · rw [if_neg h2]
        have hfit : Fits (intBits cfg) (((10 : Int) ^ P).tdiv
            (((10 : Int) ^ g.length).bmod (2 ^ (if cfg.i128 = true then 128 else 64)))) := by
          have h3 := Int.natAbs_tdiv_le_natAbs ((10 : Int) ^ P)
            (((10 : Int) ^ g.length).bmod (2 ^ (if cfg.i128 = true then 128 else 64)))
          have h4 : (0 : Int) < 10 ^ P := by positivity
          have h5 := hc.2
          unfold Fits iMin iMax at *
          omega
        rw [if_pos hfit, ok_bind, SInt.arith_wrap cfg ho, ok_bind, SInt.arith_wrap cfg ho, ok_bind,
          SInt.arith_wrap cfg ho, ok_bind]
        exact ⟨fun _ => ⟨h2, h1⟩, fun _ => ⟨_, rfl⟩⟩
    · rw [decide_eq_false h1]
      constructor
      · rintro ⟨x, h⟩; cases h
      · intro h; exact absurd h.2 h1

example := C34_compiles_release_iff (ε := Unit) (cfg := ⟨false, false, true, false⟩) (L := .i64)
  (P := 9) rfl (by decide) ⟨some true, [1, 2], some [3, 4]⟩ ⟨by simp, by simp⟩

/-- C35 without overflow checks, exactly: the raw value of a literal that compiles is
`±(int·10^P + frac·(10^P / e))` modulo `2^BITS`, where `e` is the power of ten for the fractional
digits, wrapped to `Int`, and the quotient is truncated. -/
theorem C35_value_release_exact {cfg : Cfg} (ho : cfg.overflowChecks = false)
    (hv : Valid cfg L P) (l : Literal) (hl : l.WellFormed) (x : FP L P)
    (h : (fixnumConst cfg L P (l.text.map Char.toNat) : Res ε _) = .ok x) :
    x.inner = BitVec.ofInt _ ((if l.sign = some true then -1 else 1) *
      (natOf l.int * 10 ^ P + natOf l.fracDigits * ((10 : Int) ^ P).tdiv
        (((10 : Int) ^ l.fracDigits.length).bmod (2 ^ (if cfg.i128 = true then 128 else 64))))) := by
  have hw := intBits_pos cfg
  have hc := ten_pow_int_fits hv (le_refl P)
  have hcc := toInt_ofInt_of_fits hw hc
  have hsg : sgn l.sign = if l.sign = some true then -1 else 1 := by
    rcases l.sign with _ | _ | _ <;> rfl
  change (fixnumConst cfg L P (literalBytes l) : Res ε _) = .ok x at h
  unfold fixnumConst at h
  rw [pow10_fits hc, ok_bind] at h
  obtain ⟨v, h1, h2⟩ := bind_ok_inv h
  rw [literalBytes_eq, parseFixed_parts cfg (split_literal hl.1)] at h1
  obtain ⟨i, f, e1, e2, e3, e4⟩ := parseFixedParts_inv digitByte_lt (by
    intro f hf
    rcases hlf : l.frac with _ | g
    · rw [hlf] at hf; cases hf
    · rw [hlf] at hf; cases hf; exact digitByte_lt) (approx_ofInt hw hc) h1
  have e1 := digitByte_map_inj e1
  rw [← hsg]
  have hv' : v = BitVec.ofInt _ (sgn l.sign *
      (natOf l.int * 10 ^ P + natOf l.fracDigits * ((10 : Int) ^ P).tdiv
        (((10 : Int) ^ l.fracDigits.length).bmod
          (2 ^ (if cfg.i128 = true then 128 else 64))))) := by
    unfold Literal.fracDigits
    rcases hlf : l.frac with _ | g
    · rcases f with _ | f
      · rw [(e4 rfl).1, ← e1]
        simp [natOf, mul_assoc]
      · rw [hlf] at e2; cases e2
    · rcases f with _ | f
      · rw [hlf] at e2; cases e2
      · rw [hlf] at e2
        simp only [Option.map_some, Option.some.injEq] at e2
        have e2 := digitByte_map_inj e2
        subst e2
        rw [Option.getD_some]
        obtain ⟨e, k1, k2, k3, k4⟩ := e3 g rfl
        rw [pow10_wrap ho] at k1
        cases k1
        rw [k4.1, ← e1, hcc, BitVec.toInt_ofInt]
        congr 2
        rw [mul_comm (natOf g : Int)]
        rfl
  cases h2
  rw [hv', cast_ofInt (bits_le_intBits hv)]
  rfl

example := C35_value_release_exact (ε := Unit) (cfg := ⟨false, false, true, false⟩) (L := .i64)
  (P := 9) rfl (by decide) ⟨some true, [1, 2], some [3, 4]⟩ ⟨by simp, by simp⟩ ⟨-12340000000⟩
  (by decide +kernel)

example : (fixnumConst ⟨false, false, true, false⟩ .i64 9
      ("1.1234567890123456789".toList.map Char.toNat) : Res Empty _) = .ok ⟨1000000000⟩ ∧
    Valid ⟨false, false, true, false⟩ .i64 9 := by
  decide +kernel

/-! ## C74: the precision passed to the macro -/

/-- Reading the raw number at another precision. -/
theorem fixnumConstAt_eq (cfg : Cfg) (L : Layout) (P Q : Nat) (bs : List Nat) :
    (fixnumConstAt cfg L P Q bs : Res ε (FP L P)) =
      mapOk (fixnumConst cfg L Q bs) fun x => ⟨x.inner⟩ := by
  unfold fixnumConstAt fixnumConst
  rcases (pow10 cfg Q : Res ε _) with c | e | f
  · simp only [ok_bind]
    rcases (parseFixed cfg bs c : Res ε _) with v | e | f <;> rfl
  · rfl
  · rfl

/-- C74: with equal precisions it is the macro of C34 and C35. -/
theorem C74_same_precision (cfg : Cfg) (L : Layout) (P : Nat) (bs : List Nat) :
    (fixnumConstAt cfg L P P bs : Res ε (FP L P)) = fixnumConst cfg L P bs := rfl

example : (fixnumConstAt debugCfg .i64 9 9 [45, 49, 46, 53] : Res Unit (FP .i64 9)) =
    .ok ⟨-1500000000⟩ := by decide +kernel

/-- C74: `fixnum_const!(lit, Q)` used as a `FixedPoint<L, P>` denotes the literal times
`10^Q / 10^P`: what the type's precision is plays no role in the expansion.  (Overflow checks on;
the raw number is one of the layout, see C35.) -/
theorem C74_scaled {cfg : Cfg} (ho : cfg.overflowChecks = true) (Q : Nat) (bs : List Nat)
    (hb : ∀ b ∈ bs, b < 256) (x : FP L P)
    (h : (fixnumConstAt cfg L P Q bs : Res ε _) = .ok x) :
    ∃ l : Literal, bs = l.text.map Char.toNat ∧ l.fracDigits.length ≤ Q ∧
      (Representable L Q l.denote → value x = l.denote * 10 ^ Q / 10 ^ P) := by
  rw [fixnumConstAt_eq] at h
  rcases hc : (fixnumConst cfg L Q bs : Res ε (FP L Q)) with y | e | f <;> rw [hc] at h
  · cases h
    obtain ⟨l, h1, h2, h3, -⟩ := C35_value_representable_partial ho bs hb y hc
    refine ⟨l, h1, h2, fun hr => ?_⟩
    rw [← h3 hr]
    unfold value
    rw [div_mul_cancel₀ _ (by positivity)]
  · cases h
  · cases h

example := C74_scaled (ε := Unit) (cfg := ⟨true, true, true, true⟩) (L := .i64) (P := 4) rfl 2
  ("1.5".toList.map Char.toNat) (by decide +kernel) ⟨150⟩ (by decide +kernel)

/-- C74: so the value is the number written exactly if the precisions agree or it is zero. -/
theorem C74_value_iff {cfg : Cfg} (ho : cfg.overflowChecks = true) {Q : Nat}
    (hv : Valid cfg L Q) (l : Literal) (hl : l.WellFormed) (hr : Representable L Q l.denote)
    (x : FP L P) (h : (fixnumConstAt cfg L P Q (l.text.map Char.toNat) : Res ε _) = .ok x) :
    value x = l.denote ↔ Q = P ∨ l.denote = 0 := by
  have key : value x = l.denote * 10 ^ Q / 10 ^ P := by
    rw [fixnumConstAt_eq] at h
    rcases hc : (fixnumConst cfg L Q (l.text.map Char.toNat) : Res ε (FP L Q)) with y | e | f <;>
      rw [hc] at h
    · cases h
      have h1 := (fixnumConst_only ho hv hl.1 hc).1
      rw [← C35_value_release_partial hv l hl h1 hr y hc]
      unfold value
      rw [div_mul_cancel₀ _ (by positivity)]
    · cases h
    · cases h
  rw [key]
  constructor
  · intro e
    rw [div_eq_iff (by positivity)] at e
    by_cases hz : l.denote = 0
    · exact .inr hz
    · left
      have := mul_left_cancel₀ hz e
      exact Nat.pow_right_injective (le_refl 10 |>.trans' (by norm_num)) (by exact_mod_cast this)
  · rintro (rfl | e)
    · rw [mul_div_assoc, div_self (by positivity), mul_one]
    · rw [e]; simp

example := C74_value_iff (ε := Unit) (cfg := ⟨true, true, true, true⟩) (L := .i64) (P := 4) rfl
  (Q := 2) (by decide) ⟨none, [1], some [5]⟩ ⟨by simp, by simp⟩ ⟨⟨150⟩, by decide +kernel⟩ ⟨150⟩
  (by decide +kernel)

/-- C74: the disagreement, concretely: `fixnum_const!(1.5, 2)` as a `FixedPoint<i64, U9>` is
`0.00000015`. -/
theorem C74_mismatch_example :
    (fixnumConstAt debugCfg .i64 9 2 ("1.5".toList.map Char.toNat) : Res Empty _) = .ok ⟨150⟩ := by
  decide +kernel

example : Valid debugCfg .i64 2 ∧ Literal.WellFormed ⟨none, [1], some [5]⟩ ∧
    Literal.text ⟨none, [1], some [5]⟩ = "1.5".toList ∧
    Representable .i64 2 (Literal.denote ⟨none, [1], some [5]⟩) :=
  ⟨by decide +kernel, ⟨by simp, by simp⟩, by decide +kernel, ⟨150⟩, by decide +kernel⟩

/-- The bound of `C34_compiles_release_iff` in use: 19 fractional digits compile, 64 do not (the
power of ten wraps to zero). -/
example : ((10 : Int) ^ 19).bmod (2 ^ 64) < 0 ∧ ((10 : Int) ^ 64).bmod (2 ^ 64) = 0 := by
  decide +kernel

end Fixnum
