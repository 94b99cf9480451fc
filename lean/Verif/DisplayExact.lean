import Verif.DisplayBasic

/-! # What `stringify` computes, buffer and overflow included -/

namespace Fixnum

open Res Spec

variable {L : Layout} {P : Nat} {ε : Type}

/-- A text written to a buffer of 41 bytes (21 without the feature `i128`): if it is longer, a debug
assertion fails, or, without debug assertions, bytes are written outside the buffer. -/
def Spec.inBuffer (cfg : Cfg) (t : List Char) : Res ε (List Char) :=
  if t.length ≤ (if cfg.i128 = true then 41 else 21) then .ok t
  else if cfg.debugAssertions = true then .panic else .fault .ub

theorem pushStr_eq (cfg : Cfg) (buf : StrBuf) (s : List Char) :
    (buf.pushStr cfg s : Res ε StrBuf) = inBuffer cfg (buf ++ s) := by
  unfold StrBuf.pushStr inBuffer debugAssert
  rw [List.length_append]
  have e : strBufMaxLen cfg = if cfg.i128 = true then 41 else 21 := rfl
  rw [← e]
  by_cases h : buf.length + s.length ≤ strBufMaxLen cfg
  · rw [if_pos h, if_pos h, decide_eq_true h]; simp
  · rw [if_neg h, if_neg h, decide_eq_false h]
    cases cfg.debugAssertions <;> simp [Res.panic]

theorem push_eq (cfg : Cfg) (buf : StrBuf) (c : Char) :
    (buf.push cfg c : Res ε StrBuf) = inBuffer cfg (buf ++ [c]) := by
  rw [← pushStr_eq]
  rfl

theorem inBuffer_bind (cfg : Cfg) (t u : List Char) :
    ((inBuffer cfg t : Res ε StrBuf) >>= fun b => inBuffer cfg (b ++ u)) =
      inBuffer cfg (t ++ u) := by
  by_cases h : t.length ≤ (if cfg.i128 = true then 41 else 21)
  · have e : (inBuffer cfg t : Res ε StrBuf) = .ok t := if_pos h
    rw [e, ok_bind]
  · have h' : ¬ (t ++ u).length ≤ (if cfg.i128 = true then 41 else 21) := by
      rw [List.length_append]; omega
    unfold inBuffer
    rw [if_neg h, if_neg h']
    split <;> rfl

/-- The sign as written. -/
def signOf (r : Int) : List Char := if r < 0 then ['-'] else []

/-- `stringify` with the quotient and remainder as numbers. -/
theorem display_eq {cfg : Cfg} (hv : Valid cfg L P) (x : FP L P) :
    (FP.display cfg x : Res ε (List Char)) = (do
      let i ← SInt.arith cfg L.bits |x.inner.toInt.tdiv (10 ^ P)|
      let b ← inBuffer cfg (signOf x.inner.toInt ++ itoa i.toInt ++ ['.'])
      FP.stringifyFrac cfg (BitVec.ofInt L.bits (10 ^ P))
        (BitVec.ofInt L.bits |x.inner.toInt.tmod (10 ^ P)|) b) := by
  have hw := bits_pos L
  have hw1 : 1 < L.bits := by cases L <;> decide
  have hfx := toInt_fits x.inner
  have hc := coef_toInt hv
  generalize hr : x.inner.toInt = r at *
  have hc0 : (10 : Int) ^ P ≠ 0 := by positivity
  have hcp : (1 : Int) ≤ 10 ^ P := one_le_pow₀ (by norm_num)
  have hM := hv.1
  have hqr : |r.tdiv (10 ^ P)| ≤ |r| := by
    have := abs_tdiv_le' r (10 ^ P)
    rw [abs_of_pos (by positivity : (0:Int) < 10 ^ P)] at this
    have h0 := abs_nonneg (r.tdiv (10 ^ P))
    nlinarith
  have hqf : Fits L.bits (r.tdiv (10 ^ P)) := by
    rw [fits_half] at hfx ⊢
    have hh := half_pos L
    rcases le_total 0 r with h | h
    · have h1 := Int.tdiv_nonneg h (by omega : (0 : Int) ≤ 10 ^ P)
      rw [abs_of_nonneg h1, abs_of_nonneg h] at hqr; omega
    · have h1 : r.tdiv (10 ^ P) ≤ 0 := by
        have := Int.tdiv_nonneg (by omega : 0 ≤ -r) (by omega : (0 : Int) ≤ 10 ^ P)
        rw [Int.neg_tdiv] at this; omega
      rw [abs_of_nonpos h1, abs_of_nonpos h] at hqr; omega
  have hmlt : |r.tmod (10 ^ P)| < 10 ^ P := by
    have := tmod_abs_lt r hc0
    rwa [abs_of_pos (by omega : (0 : Int) < 10 ^ P)] at this
  have hmaf : Fits L.bits |r.tmod (10 ^ P)| := by
    rw [fits_half]; rw [rawMax_half] at hM; have := half_pos L
    have := abs_nonneg (r.tmod (10 ^ P)); omega
  have hmf : Fits L.bits (r.tmod (10 ^ P)) := by
    rw [fits_half] at hmaf ⊢; have := neg_abs_le (r.tmod (10 ^ P))
    have := le_abs_self (r.tmod (10 ^ P)); omega
  have hb : ∀ b : StrBuf,
      ((do
        let q ← SInt.div x.inner (BitVec.ofInt L.bits (10 ^ P))
        let integral ← SInt.abs cfg q
        let r ← SInt.rem x.inner (BitVec.ofInt L.bits (10 ^ P))
        let fractional ← SInt.abs cfg r
        let buf ← b.pushStr cfg (itoa integral.toInt)
        let buf ← buf.push cfg '.'
        FP.stringifyFrac cfg (BitVec.ofInt L.bits (10 ^ P)) fractional buf) : Res ε StrBuf) =
      (do
        let i ← SInt.arith cfg L.bits |r.tdiv (10 ^ P)|
        let b ← inBuffer cfg (b ++ itoa i.toInt ++ ['.'])
        FP.stringifyFrac cfg (BitVec.ofInt L.bits (10 ^ P))
          (BitVec.ofInt L.bits |r.tmod (10 ^ P)|) b) := by
    intro b
    unfold SInt.div SInt.rem SInt.abs
    rw [hc, hr, if_neg hc0, if_neg hc0, if_pos hqf, if_pos hqf, ok_bind,
      toInt_ofInt_of_fits hw hqf]
    congr 1
    funext i
    rw [ok_bind, toInt_ofInt_of_fits hw hmf, SInt.arith_fits cfg hmaf, ok_bind, pushStr_eq,
      ← inBuffer_bind cfg (b ++ itoa i.toInt)]
    cases (inBuffer cfg (b ++ itoa i.toInt) : Res ε StrBuf) with
    | ok b => rw [ok_bind, ok_bind, push_eq]
    | err e => rfl
    | fault k => rfl
  unfold FP.display FP.stringify
  rw [coef_spec hv, ok_bind]
  dsimp only
  rw [SInt.signum_toInt hw1, hr]
  unfold signOf
  by_cases hneg : r < 0
  · rw [if_pos (by rw [Int.sign_eq_neg_one_of_neg hneg]; decide), push_spec (by
      rw [List.length_nil]; unfold strBufMaxLen; split <;> omega), ok_bind, hb, if_pos hneg]
    rfl
  · rw [if_neg (by
      have := Int.sign_nonneg_iff.2 (not_lt.1 hneg); omega), ok_bind, hb, if_neg hneg]

/-- The fraction, no overflow: the digits of `canonical` fractions. -/
theorem stringifyFrac_fits {cfg : Cfg} (hv : Valid cfg L P) {f : Nat} (hf : f < 10 ^ P)
    (h2 : f = 0 ∨ (f : Int) + 10 ^ P ≤ rawMax L) :
    ∃ ds : List (Fin 10), (ds = [0] ∨ ∃ d u, ds = u ++ [d] ∧ d ≠ 0) ∧
      ds.length ≤ max P 1 ∧ (natOf ds : ℚ) / 10 ^ ds.length = (f : ℚ) / 10 ^ P ∧
      ∀ buf : StrBuf,
        (FP.stringifyFrac cfg (BitVec.ofInt L.bits (10 ^ P)) (BitVec.ofInt L.bits (f : Int)) buf :
          Res ε StrBuf) = inBuffer cfg (buf ++ ds.map digit) := by
  have hw := bits_pos L
  have hM := hv.1
  have hfi : (f : Int) < 10 ^ P := by exact_mod_cast hf
  have hff : Fits L.bits (f : Int) := by
    rw [fits_half]; rw [rawMax_half] at hM; have := half_pos L; omega
  have hcf : Fits L.bits ((10 : Int) ^ P) := ten_pow_fits hv
  unfold FP.stringifyFrac
  rw [toInt_ofInt_of_fits hw hff]
  by_cases h0 : f = 0
  · subst h0
    refine ⟨[0], .inl rfl, by simp, by simp [natOf], fun buf => ?_⟩
    rw [if_neg (by simp), push_eq]
    rfl
  · have h2' := h2.resolve_left h0
    have hsum : Fits L.bits ((f : Int) + 10 ^ P) := by
      rw [fits_half]; rw [rawMax_half] at h2'; have := half_pos L
      have : (0 : Int) < 10 ^ P := by positivity
      omega
    obtain ⟨t, ht1, ht2, ht3⟩ := itoaNat_leading_one hf
    obtain ⟨d, u, k, hd, hu1, hu2⟩ := trimEndZeros_spec t (by rw [ht3]; exact h0)
    have hlen : (u ++ [d]).length + k = P := by
      rw [← ht2, hu2, List.length_append (bs := List.replicate k 0), List.length_replicate]
    refine ⟨u ++ [d], .inr ⟨d, u, rfl, hd⟩, by omega, ?_, fun buf => ?_⟩
    · have hn : f = natOf (u ++ [d]) * 10 ^ k := by
        rw [← ht3]; conv_lhs => rw [hu2]
        rw [natOf_append, natOf_replicate, List.length_replicate, add_zero]
      have hP : (10 : ℚ) ^ P = 10 ^ (u ++ [d]).length * 10 ^ k := by
        rw [← hlen, pow_add]
      rw [hn, hP]
      push_cast
      rw [mul_div_mul_right _ _ (ten_pow_ne k)]
    · rw [if_pos (by omega)]
      unfold SInt.add
      rw [toInt_ofInt_of_fits hw hff, toInt_ofInt_of_fits hw hcf, SInt.arith_fits cfg hsum,
        ok_bind, toInt_ofInt_of_fits hw hsum]
      have e : ((f : Int) + 10 ^ P) = ((f + 10 ^ P : Nat) : Int) := by push_cast; rfl
      dsimp only
      rw [e, itoa_nat, ht1, hu1, pushStr_eq]

/-- The fraction, `fractional + COEF` overflows and wraps. -/
theorem stringifyFrac_wraps {cfg : Cfg} (ho : cfg.overflowChecks = false) (hL : L = .i128) {f : Nat}
    (hf : f < 10 ^ 38) (h2 : rawMax L < (f : Int) + 10 ^ 38) :
    ∃ (ds : List (Fin 10)) (k : Nat), (∃ d u, ds = u ++ [d] ∧ d ≠ 0) ∧ ds.length + k = 39 ∧
      natOf ds * 10 ^ k = 2 ^ 128 - 10 ^ 38 - f ∧
      ∀ buf : StrBuf,
        (FP.stringifyFrac cfg (BitVec.ofInt L.bits (10 ^ 38)) (BitVec.ofInt L.bits (f : Int))
          buf : Res ε StrBuf) = inBuffer cfg (buf ++ ds.map digit) := by
  have hw := bits_pos L
  have hbits : (2 : Nat) ^ L.bits = 2 ^ 128 := by rw [hL]; rfl
  have hhalf : half L = 2 ^ 127 := by rw [hL]; rfl
  rw [rawMax_half, hhalf] at h2
  norm_num at h2 hf
  have hff : Fits L.bits (f : Int) := by
    rw [fits_half, hhalf]; constructor <;> norm_num <;> omega
  have hcf : Fits L.bits ((10 : Int) ^ 38) := by
    rw [fits_half, hhalf]; constructor <;> norm_num
  have hwf : Fits L.bits ((f : Int) + 10 ^ 38 - 2 ^ 128) := by
    rw [fits_half, hhalf]; constructor <;> norm_num <;> omega
  have hwr : BitVec.ofInt L.bits ((f : Int) + 10 ^ 38) =
      BitVec.ofInt L.bits ((f : Int) + 10 ^ 38 - 2 ^ 128) := by
    apply BitVec.eq_of_toInt_eq
    rw [BitVec.toInt_ofInt, BitVec.toInt_ofInt, hbits]
    have := Int.sub_bmod_right ((f : Int) + 10 ^ 38) (2 ^ 128)
    push_cast at this
    exact this.symm
  obtain ⟨N, hN⟩ : ∃ N : Nat, N = 2 ^ 128 - 10 ^ 38 - f := ⟨_, rfl⟩
  have hNi : (f : Int) + 10 ^ 38 - 2 ^ 128 = -(N : Int) := by norm_num at hN ⊢; omega
  have hNlo : 10 ^ 38 ≤ N := by norm_num at hN hf ⊢; omega
  have hNhi : N < 10 ^ 39 := by norm_num at hN ⊢; omega
  obtain ⟨t, ht1, ht2, ht3⟩ := itoaNat_spec N
  have hlen : t.length = 39 := by
    have h1 := length_le_of_natOf ht3 ht2 (k := 39) (by norm_num) hNhi
    have h2 := natOf_lt t
    rw [ht2] at h2
    have h3 := (pow_lt_pow_iff_right₀ (by norm_num : 1 < 10)).1 (lt_of_le_of_lt hNlo h2)
    omega
  obtain ⟨d, u, k, hd, hu1, hu2⟩ := trimEndZeros_spec t (by rw [ht2]; omega)
  refine ⟨u ++ [d], k, ⟨d, u, rfl, hd⟩, ?_, ?_, fun buf => ?_⟩
  · rw [← hlen, hu2, List.length_append (bs := List.replicate k 0), List.length_replicate]
  · rw [← hN, ← ht2]; conv_rhs => rw [hu2]
    rw [natOf_append (u ++ [d]), natOf_replicate, List.length_replicate, add_zero]
  · unfold FP.stringifyFrac
    rw [toInt_ofInt_of_fits hw hff, if_pos (by omega)]
    unfold SInt.add
    rw [toInt_ofInt_of_fits hw hff, toInt_ofInt_of_fits hw hcf, SInt.arith_wrap cfg ho, ok_bind,
      hwr, toInt_ofInt_of_fits hw hwf, hNi]
    dsimp only
    have e4 : (itoa (-(N : Int))).drop 1 = itoaNat N := by
      unfold itoa
      rw [if_pos (by have : 0 < N := by omega
                     omega)]
      simp
    rw [e4, ht1, hu1, pushStr_eq]

/-- The fraction, `fractional + COEF` overflows and is checked. -/
theorem stringifyFrac_panics {cfg : Cfg} (hv : Valid cfg L P) (ho : cfg.overflowChecks = true)
    {f : Nat} (hf : f < 10 ^ P) (h2 : rawMax L < (f : Int) + 10 ^ P) (buf : StrBuf) :
    (FP.stringifyFrac cfg (BitVec.ofInt L.bits (10 ^ P)) (BitVec.ofInt L.bits (f : Int)) buf :
      Res ε StrBuf) = .panic := by
  have hw := bits_pos L
  have hM := hv.1
  have hfi : (f : Int) < 10 ^ P := by exact_mod_cast hf
  have hff : Fits L.bits (f : Int) := by
    rw [fits_half]; rw [rawMax_half] at hM; have := half_pos L; omega
  have hcf : Fits L.bits ((10 : Int) ^ P) := ten_pow_fits hv
  unfold FP.stringifyFrac
  rw [toInt_ofInt_of_fits hw hff, if_pos (by omega)]
  unfold SInt.add
  rw [toInt_ofInt_of_fits hw hff, toInt_ofInt_of_fits hw hcf, SInt.arith_panic cfg (by
    rw [fits_half]; rw [rawMax_half] at h2; omega) ho]
  rfl

/-! ## The whole text -/

/-- The literal of a raw number with given digits before and after the point. -/
def litOf (r : Int) (id fd : List (Fin 10)) : Literal :=
  ⟨if r < 0 then some true else none, id, some fd⟩

theorem litOf_text (r : Int) (id fd : List (Fin 10)) :
    (litOf r id fd).text = signOf r ++ id.map digit ++ ['.'] ++ fd.map digit := by
  unfold litOf Literal.text signOf
  by_cases h : r < 0
  · simp [h, Literal.signText]
  · simp [h, Literal.signText]

theorem litOf_length (r : Int) (id fd : List (Fin 10)) :
    (litOf r id fd).text.length = (if r < 0 then 1 else 0) + id.length + 1 + fd.length := by
  rw [litOf_text]
  unfold signOf
  by_cases h : r < 0 <;> simp [h] <;> omega

/-- Digits that write the magnitude of the number make up its canonical literal. -/
theorem litOf_spec {r : Int} {id fd : List (Fin 10)} (h1 : id = [0] ∨ ∃ d t, id = d :: t ∧ d ≠ 0)
    (h2 : fd = [0] ∨ ∃ d u, fd = u ++ [d] ∧ d ≠ 0)
    (hi : natOf id = r.natAbs / 10 ^ P)
    (hf : (natOf fd : ℚ) / 10 ^ fd.length = ((r.natAbs % 10 ^ P : Nat) : ℚ) / 10 ^ P) :
    (litOf r id fd).Canonical ∧ (litOf r id fd).denote = (r : ℚ) / 10 ^ P := by
  have hmag : (litOf r id fd).magnitude = (r.natAbs : ℚ) / 10 ^ P := by
    show (natOf id : ℚ) + (natOf fd : ℚ) / 10 ^ fd.length = _
    rw [hf, hi, eq_div_iff (ten_pow_ne P), add_mul, div_mul_cancel₀ _ (ten_pow_ne P)]
    have := Nat.div_add_mod' r.natAbs (10 ^ P)
    exact_mod_cast this
  refine ⟨⟨?_, ?_, h1, ?_⟩, ?_⟩
  · unfold litOf
    dsimp only
    split <;> simp
  · intro h
    have hneg : r < 0 := by
      by_contra hn
      unfold litOf at h
      dsimp only at h
      rw [if_neg hn] at h
      cases h
    rw [hmag]
    have : (0 : ℚ) < r.natAbs := by exact_mod_cast (by omega : 0 < r.natAbs)
    have hp := ten_pow_pos P
    positivity
  · rcases h2 with h | ⟨d, u, h, hd⟩
    · exact .inl (by rw [← h]; rfl)
    · exact .inr ⟨d, u, by rw [← h]; rfl, hd⟩
  · unfold Literal.denote
    rw [hmag]
    unfold litOf
    dsimp only
    have e2 : (r.natAbs : ℚ) = |(r : ℚ)| := by
      rw [← Int.cast_abs, Int.abs_eq_natAbs]; rfl
    rw [e2]
    by_cases hneg : r < 0
    · have : (r : ℚ) < 0 := by exact_mod_cast hneg
      rw [if_pos hneg, if_pos rfl, abs_of_neg this]; ring
    · have : (0 : ℚ) ≤ r := by exact_mod_cast not_lt.1 hneg
      rw [if_neg hneg, if_neg (by simp), abs_of_nonneg this]

theorem natAbs_tdiv_pow (r : Int) : |r.tdiv (10 ^ P)| = ((r.natAbs / 10 ^ P : Nat) : Int) := by
  have hcN : ((10 : Int) ^ P).natAbs = 10 ^ P := by rw [Int.natAbs_pow]; rfl
  rw [Int.abs_eq_natAbs, Int.natAbs_tdiv, hcN]; rfl

theorem natAbs_tmod_pow (r : Int) : |r.tmod (10 ^ P)| = ((r.natAbs % 10 ^ P : Nat) : Int) := by
  have hcN : ((10 : Int) ^ P).natAbs = 10 ^ P := by rw [Int.natAbs_pow]; rfl
  rw [Int.abs_eq_natAbs, Int.natAbs_tmod, hcN]

/-- The integral part is representable, except for `MIN` at precision 0. -/
theorem integral_fits (x : FP L P) (h1 : P = 0 → x.inner.toInt ≠ rawMin L) :
    Fits L.bits ((x.inner.toInt.natAbs / 10 ^ P : Nat) : Int) := by
  have hfx := (fits_half L _).1 (toInt_fits x.inner)
  have hh := half_pos L
  rw [fits_half]
  generalize x.inner.toInt = r at *
  by_cases hP : P = 0
  · have := h1 hP
    rw [rawMin_half] at this
    rw [hP, pow_zero, Nat.div_one]
    omega
  · have h10 : 10 ≤ 10 ^ P := by
      calc 10 = 10 ^ 1 := by norm_num
        _ ≤ 10 ^ P := Nat.pow_le_pow_right (by norm_num) (by omega)
    have : r.natAbs / 10 ^ P ≤ r.natAbs / 10 :=
      Nat.div_le_div_left h10 (by norm_num)
    generalize r.natAbs / 10 ^ P = q at *
    omega

/-- What comes before the fraction. -/
theorem display_head {cfg : Cfg} (hv : Valid cfg L P) (x : FP L P)
    (h1 : P = 0 → x.inner.toInt ≠ rawMin L) :
    ∃ id : List (Fin 10), (id = [0] ∨ ∃ d t, id = d :: t ∧ d ≠ 0) ∧
      natOf id = x.inner.toInt.natAbs / 10 ^ P ∧
      (FP.display cfg x : Res ε (List Char)) = (do
        let b ← inBuffer cfg (signOf x.inner.toInt ++ id.map digit ++ ['.'])
        FP.stringifyFrac cfg (BitVec.ofInt L.bits (10 ^ P))
          (BitVec.ofInt L.bits ((x.inner.toInt.natAbs % 10 ^ P : Nat) : Int)) b) := by
  have hf := integral_fits x h1
  obtain ⟨id, hid1, hid2, hid3⟩ := itoaNat_spec (x.inner.toInt.natAbs / 10 ^ P)
  refine ⟨id, hid3, hid2, ?_⟩
  rw [display_eq hv, natAbs_tdiv_pow, natAbs_tmod_pow, SInt.arith_fits cfg hf, ok_bind,
    toInt_ofInt_of_fits (bits_pos L) hf, itoa_nat, hid1]

/-- The displayed text, no addition overflows. -/
theorem display_text {cfg : Cfg} (hv : Valid cfg L P) (x : FP L P)
    (h1 : P = 0 → x.inner.toInt ≠ rawMin L)
    (h2 : x.inner.toInt.natAbs % 10 ^ P = 0 ∨
      ((x.inner.toInt.natAbs % 10 ^ P : Nat) : Int) + 10 ^ P ≤ rawMax L) :
    ∃ id fd : List (Fin 10), (id = [0] ∨ ∃ d t, id = d :: t ∧ d ≠ 0) ∧
      (fd = [0] ∨ ∃ d u, fd = u ++ [d] ∧ d ≠ 0) ∧ natOf id = x.inner.toInt.natAbs / 10 ^ P ∧
      fd.length ≤ max P 1 ∧
      (natOf fd : ℚ) / 10 ^ fd.length = ((x.inner.toInt.natAbs % 10 ^ P : Nat) : ℚ) / 10 ^ P ∧
      (FP.display cfg x : Res ε (List Char)) = inBuffer cfg (litOf x.inner.toInt id fd).text := by
  obtain ⟨id, hid1, hid2, hid3⟩ := display_head (ε := ε) hv x h1
  obtain ⟨fd, hfd1, hfd2, hfd3, hfd4⟩ := stringifyFrac_fits (ε := ε) hv
    (Nat.mod_lt x.inner.toInt.natAbs (by positivity : 0 < 10 ^ P)) h2
  refine ⟨id, fd, hid1, hfd1, hid2, hfd2, hfd3, ?_⟩
  rw [hid3, litOf_text, ← inBuffer_bind cfg _ (fd.map digit)]
  congr 1
  funext b
  rw [hfd4]

end Fixnum
