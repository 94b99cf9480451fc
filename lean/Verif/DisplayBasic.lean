import Verif.ParseBasic
import Mathlib.Data.List.Induction

/-! # What `stringify` computes -/

namespace Fixnum

open Res Spec

variable {L : Layout} {P : Nat} {ε : Type}

/-! ## `itoa` -/

theorem digitChar_eq (d : Fin 10) : digitChar d.val = digit d := by
  revert d; decide

theorem digits_pos (n : Nat) (h : 0 < n) : ∃ d : Fin 10, ∃ t : List (Fin 10), d ≠ 0 ∧
    ((Nat.digits 10 n).reverse).map digitChar = (d :: t).map digit ∧ natOf (d :: t) = n := by
  induction n using Nat.strong_induction_on with
  | _ n ih =>
    rw [Nat.digits_def' (by norm_num) h]
    have e : digitChar (n % 10) = digit ⟨n % 10, Nat.mod_lt _ (by norm_num)⟩ := by
      rw [← digitChar_eq]
    by_cases hs : n < 10
    · refine ⟨⟨n % 10, Nat.mod_lt _ (by norm_num)⟩, [], ?_, ?_, ?_⟩
      · intro h'
        have := congrArg Fin.val h'
        simp only [Fin.val_zero] at this
        omega
      · rw [Nat.div_eq_of_lt hs, Nat.digits_zero]
        simp only [List.reverse_singleton, List.map_singleton, e]
      · simp only [natOf, List.foldl_cons, List.foldl_nil]; omega
    · obtain ⟨d, t, h1, h2, h3⟩ := ih (n / 10) (by omega) (by omega)
      refine ⟨d, t ++ [⟨n % 10, Nat.mod_lt _ (by norm_num)⟩], h1, ?_, ?_⟩
      · rw [List.reverse_cons, List.map_append, h2, ← List.cons_append, List.map_append,
          List.map_singleton, List.map_singleton, e]
      · rw [← List.cons_append, natOf_append, h3]
        simp only [natOf, List.foldl_cons, List.foldl_nil, List.length_singleton, pow_one]
        omega

/-- `itoa` writes the digits of the number without superfluous leading zeros. -/
theorem itoaNat_spec (n : Nat) : ∃ ds : List (Fin 10), itoaNat n = ds.map digit ∧ natOf ds = n ∧
    (ds = [0] ∨ ∃ d t, ds = d :: t ∧ d ≠ 0) := by
  unfold itoaNat
  split
  · rename_i h
    exact ⟨[0], rfl, by rw [h]; rfl, .inl rfl⟩
  · rename_i h
    obtain ⟨d, t, h1, h2, h3⟩ := digits_pos n (by omega)
    exact ⟨d :: t, h2, h3, .inr ⟨d, t, rfl, h1⟩⟩

theorem length_le_of_natOf {ds : List (Fin 10)} {n k : Nat}
    (h : ds = [0] ∨ ∃ d t, ds = d :: t ∧ d ≠ 0) (hn : natOf ds = n) (hk : 1 ≤ k)
    (hlt : n < 10 ^ k) : ds.length ≤ k := by
  rcases h with rfl | ⟨d, t, rfl, hd⟩
  · simpa using hk
  · rw [natOf_cons] at hn
    have h1 : 1 ≤ d.val := by
      have : d.val ≠ 0 := fun h => hd (Fin.ext h)
      omega
    have h2 : 10 ^ t.length < 10 ^ k := by
      have : 1 * 10 ^ t.length ≤ d.val * 10 ^ t.length := Nat.mul_le_mul_right _ h1
      omega
    have := (Nat.pow_lt_pow_iff_right (by norm_num : 1 < 10)).1 h2
    rw [List.length_cons]; omega

/-- The digits of a number between `10^P` and `2·10^P` are a one and the `P` digits of the rest. -/
theorem itoaNat_leading_one {f : Nat} (hf : f < 10 ^ P) : ∃ t : List (Fin 10),
    (itoaNat (f + 10 ^ P)).drop 1 = t.map digit ∧ t.length = P ∧ natOf t = f := by
  obtain ⟨ds, h1, h2, h3⟩ := itoaNat_spec (f + 10 ^ P)
  have hp : 0 < 10 ^ P := by positivity
  have hlen := length_le_of_natOf h3 h2 (k := P + 1) (by omega) (by rw [pow_succ]; omega)
  rcases h3 with rfl | ⟨d, t, rfl, hd⟩
  · simp [natOf] at h2; omega
  · have hd1 : 1 ≤ d.val := by
      have : d.val ≠ 0 := fun h => hd (Fin.ext h)
      omega
    rw [List.length_cons] at hlen
    have h4 := natOf_lt (d :: t)
    rw [h2, List.length_cons] at h4
    have h5 : 10 ^ P < 10 ^ (t.length + 1) := by omega
    have h6 := (Nat.pow_lt_pow_iff_right (by norm_num : 1 < 10)).1 h5
    have ht : t.length = P := by omega
    have h7 := natOf_lt t
    rw [natOf_cons, ht] at h2
    rw [ht] at h7
    have hd2 : d.val = 1 := by
      by_contra h
      have : 2 * 10 ^ P ≤ d.val * 10 ^ P := Nat.mul_le_mul_right _ (by omega)
      omega
    rw [hd2] at h2
    exact ⟨t, by rw [h1]; rfl, ht, by omega⟩

theorem zero_iff_digit (d : Fin 10) : (digit d == '0') = decide (d = 0) := by
  revert d; decide

/-- `trim_end_matches('0')` on digits that are not all zero. -/
theorem trimEndZeros_spec (t : List (Fin 10)) (h : natOf t ≠ 0) : ∃ d u k, d ≠ 0 ∧
    trimEndZeros (t.map digit) = (u ++ [d]).map digit ∧ t = u ++ [d] ++ List.replicate k 0 := by
  unfold trimEndZeros
  induction t using List.reverseRecOn with
  | nil => simp [natOf] at h
  | append_singleton t d ih =>
    rw [List.map_append, List.reverse_append, List.map_singleton, List.reverse_singleton,
      List.singleton_append, List.dropWhile_cons, zero_iff_digit]
    by_cases hd : d = 0
    · rw [decide_eq_true hd, if_pos rfl]
      subst hd
      rw [natOf_append] at h
      obtain ⟨e, u, k, h1, h2, h3⟩ := ih (by
        intro h'; rw [h'] at h; simp [natOf] at h)
      exact ⟨e, u, k + 1, h1, h2, by
        conv_lhs => rw [h3]
        rw [List.replicate_succ']; simp⟩
    · rw [decide_eq_false hd, if_neg (by simp)]
      exact ⟨d, t, 0, hd, by simp, by simp⟩

theorem natOf_replicate (k : Nat) : natOf (List.replicate k 0) = 0 := by
  induction k with
  | zero => rfl
  | succ k ih => rw [List.replicate_succ, natOf_cons, ih]; simp

/-! ## The buffer -/

theorem push_spec {cfg : Cfg} {buf : StrBuf} {c : Char} (h : buf.length < strBufMaxLen cfg) :
    (buf.push cfg c : Res ε StrBuf) = .ok (buf ++ [c]) := by
  unfold StrBuf.push
  rw [decide_eq_true h, debugAssert_true, ok_bind, if_pos h]

theorem pushStr_spec {cfg : Cfg} {buf : StrBuf} {s : List Char}
    (h : buf.length + s.length ≤ strBufMaxLen cfg) :
    (buf.pushStr cfg s : Res ε StrBuf) = .ok (buf ++ s) := by
  unfold StrBuf.pushStr
  rw [decide_eq_true h, debugAssert_true, ok_bind, if_pos h]

theorem itoa_nat (n : Nat) : itoa (n : Int) = itoaNat n := by
  unfold itoa
  rw [if_neg (by omega), Int.natAbs_natCast]

/-! ## The fractional digits -/

/-- The digits written after the point. -/
theorem stringifyFrac_spec {cfg : Cfg} (hv : Valid cfg L P) {f : Nat} (hf : f < 10 ^ P)
    (h2 : f = 0 ∨ (f : Int) + 10 ^ P ≤ rawMax L) :
    ∃ ds : List (Fin 10), (ds = [0] ∨ ∃ d u, ds = u ++ [d] ∧ d ≠ 0) ∧
      ds.length ≤ max P 1 ∧ (natOf ds : ℚ) / 10 ^ ds.length = (f : ℚ) / 10 ^ P ∧
      ∀ buf : StrBuf, buf.length + ds.length ≤ strBufMaxLen cfg →
        (FP.stringifyFrac cfg (BitVec.ofInt L.bits (10 ^ P)) (BitVec.ofInt L.bits (f : Int)) buf :
          Res ε StrBuf) = .ok (buf ++ ds.map digit) := by
  have hw := bits_pos L
  have hM := hv.1
  have hfi : (f : Int) < 10 ^ P := by exact_mod_cast hf
  have hff : Fits L.bits (f : Int) := by
    rw [fits_half]; rw [rawMax_half] at hM; have := half_pos L; omega
  have hcf : Fits L.bits ((10 : Int) ^ P) := ten_pow_fits hv
  unfold FP.stringifyFrac
  rw [toInt_ofInt_of_fits hw hff]
  by_cases h0 : f = 0
  · subst h0
    refine ⟨[0], .inl rfl, by simp, by simp [natOf], fun buf hb => ?_⟩
    rw [if_neg (by simp), push_spec (by simpa [Nat.lt_iff_add_one_le] using hb)]
    rfl
  · have h2' := h2.resolve_left h0
    have hsum : Fits L.bits ((f : Int) + 10 ^ P) := by
      rw [fits_half]; rw [rawMax_half] at h2'; have := half_pos L
      have : (0 : Int) < 10 ^ P := by positivity
      omega
    obtain ⟨t, ht1, ht2, ht3⟩ := itoaNat_leading_one hf
    obtain ⟨d, u, k, hd, hu1, hu2⟩ := trimEndZeros_spec t (by rw [ht3]; exact h0)
    have hlen : (u ++ [d]).length + k = P := by
      rw [← ht2, hu2, List.length_append (bs := List.replicate k 0), List.length_replicate]
    refine ⟨u ++ [d], .inr ⟨d, u, rfl, hd⟩, by omega, ?_, fun buf hb => ?_⟩
    · have hn : f = natOf (u ++ [d]) * 10 ^ k := by
        rw [← ht3]; conv_lhs => rw [hu2]
        rw [natOf_append, natOf_replicate, List.length_replicate, add_zero]
      have hP : (10 : ℚ) ^ P = 10 ^ (u ++ [d]).length * 10 ^ k := by
        rw [← hlen, pow_add]
      rw [hn, hP]
      push_cast
      rw [mul_div_mul_right _ _ (ten_pow_ne k)]
    · rw [if_pos (by omega)]
      unfold SInt.add
      rw [toInt_ofInt_of_fits hw hff, toInt_ofInt_of_fits hw hcf, SInt.arith_fits cfg hsum,
        ok_bind, toInt_ofInt_of_fits hw hsum]
      have e : ((f : Int) + 10 ^ P) = ((f + 10 ^ P : Nat) : Int) := by push_cast; rfl
      dsimp only
      rw [e, itoa_nat, ht1, hu1, pushStr_spec (by rw [List.length_map]; exact hb)]

/-! ## The whole text -/

/-- What is displayed, whenever the buffer is long enough and no addition overflows. -/
theorem display_spec {cfg : Cfg} (hv : Valid cfg L P) (x : FP L P)
    (h1 : P = 0 → x.inner.toInt ≠ rawMin L)
    (h2 : x.inner.toInt.tmod (10 ^ P) = 0 ∨ |x.inner.toInt.tmod (10 ^ P)| + 10 ^ P ≤ rawMax L)
    {k : Nat} (hk1 : 1 ≤ k) (hk : |x.inner.toInt| < 10 ^ (k + P))
    (h3 : (if x.inner.toInt < 0 then 1 else 0) + k + 1 + max P 1 ≤ strBufMaxLen cfg) :
    ∃ l : Literal, (FP.display cfg x : Res ε (List Char)) = .ok l.text ∧ l.Canonical ∧
      l.denote = value x ∧ l.fracDigits.length ≤ max P 1 := by
  have hw := bits_pos L
  have hw1 : 1 < L.bits := by cases L <;> decide
  have hM := hv.1
  have hfx := toInt_fits x.inner
  have hc := coef_toInt hv
  unfold value
  generalize hr : x.inner.toInt = r at *
  -- magnitude, quotient and remainder as natural numbers
  have hn : |r| = (r.natAbs : Int) := Int.abs_eq_natAbs r
  have hcf : Fits L.bits ((10 : Int) ^ P) := ten_pow_fits hv
  have hc0 : (10 : Int) ^ P ≠ 0 := by positivity
  have hcN : ((10 : Int) ^ P).natAbs = 10 ^ P := by rw [Int.natAbs_pow]; rfl
  have hq : |r.tdiv (10 ^ P)| = ((r.natAbs / 10 ^ P : Nat) : Int) := by
    rw [Int.abs_eq_natAbs, Int.natAbs_tdiv, hcN]; rfl
  have hm : |r.tmod (10 ^ P)| = ((r.natAbs % 10 ^ P : Nat) : Int) := by
    rw [Int.abs_eq_natAbs, Int.natAbs_tmod, hcN]
  have hcp : (1 : Int) ≤ 10 ^ P := one_le_pow₀ (by norm_num)
  have hqr : |r.tdiv (10 ^ P)| ≤ |r| := by
    have := abs_tdiv_le' r (10 ^ P)
    rw [abs_of_pos (by positivity : (0:Int) < 10 ^ P)] at this
    have h0 := abs_nonneg (r.tdiv (10 ^ P))
    nlinarith
  have hqle : |r.tdiv (10 ^ P)| ≤ half L - 1 := by
    have hrl : |r| ≤ half L := by
      rw [fits_half] at hfx; rw [abs_le]; omega
    by_cases hP : P = 0
    · have h1 := h1 hP
      rw [rawMin_half] at h1
      rw [fits_half] at hfx
      have : |r| ≤ half L - 1 := by rw [abs_le]; omega
      omega
    · have h10 : (10 : Int) ^ 1 ≤ 10 ^ P := pow_le_pow_right₀ (by norm_num) (by omega)
      have := abs_tdiv_le' r (10 ^ P)
      rw [abs_of_pos (by positivity : (0:Int) < 10 ^ P)] at this
      have h0 := abs_nonneg (r.tdiv (10 ^ P))
      have hh := half_pos L
      nlinarith
  have hqaf : Fits L.bits |r.tdiv (10 ^ P)| := by
    rw [fits_half]
    have := abs_nonneg (r.tdiv (10 ^ P)); have := half_pos L; omega
  have hqf : Fits L.bits (r.tdiv (10 ^ P)) := by
    rw [fits_half]
    have := abs_le.1 hqle; omega
  have hmlt : |r.tmod (10 ^ P)| < 10 ^ P := by
    rw [hm]; exact_mod_cast Nat.mod_lt _ (by positivity)
  have hmaf : Fits L.bits |r.tmod (10 ^ P)| := by
    rw [fits_half]; rw [rawMax_half] at hM; have := half_pos L
    have := abs_nonneg (r.tmod (10 ^ P)); omega
  have hmf : Fits L.bits (r.tmod (10 ^ P)) := by
    rw [fits_half] at hmaf ⊢; have := neg_abs_le (r.tmod (10 ^ P))
    have := le_abs_self (r.tmod (10 ^ P)); omega
  obtain ⟨fd, hfd1, hfd2, hfd3, hfd4⟩ := stringifyFrac_spec (ε := ε) hv
    (Nat.mod_lt r.natAbs (by positivity : 0 < 10 ^ P)) (by
      rcases h2 with h2 | h2
      · left
        rw [h2, abs_zero] at hm
        exact_mod_cast hm.symm
      · right; rw [hm] at h2; exact h2)
  obtain ⟨id, hid1, hid2, hid3⟩ := itoaNat_spec (r.natAbs / 10 ^ P)
  have hidl : id.length ≤ k := by
    refine length_le_of_natOf hid3 hid2 hk1 ?_
    rw [Nat.div_lt_iff_lt_mul (by positivity), ← pow_add]
    rw [hn] at hk; exact_mod_cast hk
  have hmag : (natOf id : ℚ) + (natOf fd : ℚ) / 10 ^ fd.length = (r.natAbs : ℚ) / 10 ^ P := by
    rw [hfd3, hid2, eq_div_iff (ten_pow_ne P), add_mul, div_mul_cancel₀ _ (ten_pow_ne P)]
    have := Nat.div_add_mod' r.natAbs (10 ^ P)
    exact_mod_cast this
  refine ⟨⟨if r < 0 then some true else none, id, some fd⟩, ?_, ?_, ?_, hfd2⟩
  · unfold FP.display FP.stringify
    have hb : ∀ b : StrBuf, b.length = (if r < 0 then 1 else 0) →
        ((do
          let q ← SInt.div x.inner (BitVec.ofInt L.bits (10 ^ P))
          let integral ← SInt.abs cfg q
          let r ← SInt.rem x.inner (BitVec.ofInt L.bits (10 ^ P))
          let fractional ← SInt.abs cfg r
          let buf ← b.pushStr cfg (itoa integral.toInt)
          let buf ← buf.push cfg '.'
          FP.stringifyFrac cfg (BitVec.ofInt L.bits (10 ^ P)) fractional buf) : Res ε StrBuf) =
        .ok (b ++ id.map digit ++ '.' :: fd.map digit) := by
      intro b hb
      unfold SInt.div SInt.rem SInt.abs
      rw [hc, hr, if_neg hc0, if_neg hc0, if_pos hqf, if_pos hqf, ok_bind,
        toInt_ofInt_of_fits hw hqf, SInt.arith_fits cfg hqaf, ok_bind, ok_bind,
        toInt_ofInt_of_fits hw hmf, SInt.arith_fits cfg hmaf, ok_bind,
        toInt_ofInt_of_fits hw hqaf, hq, itoa_nat, hid1,
        pushStr_spec (by rw [List.length_map]; omega), ok_bind,
        push_spec (by rw [List.length_append, List.length_map]; omega), ok_bind, hm,
        hfd4 _ (by
          rw [List.length_append, List.length_append, List.length_map, List.length_singleton]
          omega)]
      rw [List.append_assoc _ ['.'], List.singleton_append]
    rw [coef_spec hv, ok_bind]
    dsimp only
    rw [SInt.signum_toInt hw1, hr]
    by_cases hneg : r < 0
    · rw [if_pos (by rw [Int.sign_eq_neg_one_of_neg hneg]; decide), push_spec (by
        rw [List.length_nil]; omega), ok_bind, hb _ (by rw [if_pos hneg]; rfl), if_pos hneg]
      rfl
    · rw [if_neg (by
        have := Int.sign_nonneg_iff.2 (not_lt.1 hneg); omega), ok_bind,
        hb _ (by rw [if_neg hneg]; rfl), if_neg hneg]
      rfl
  · refine ⟨?_, ?_, hid3, ?_⟩
    · dsimp only
      split <;> simp
    · intro h
      have hneg : r < 0 := by
        by_contra hn
        dsimp only at h
        rw [if_neg hn] at h
        cases h
      show (natOf id : ℚ) + (natOf fd : ℚ) / 10 ^ fd.length ≠ 0
      rw [hmag]
      have : (0 : ℚ) < r.natAbs := by exact_mod_cast (by omega : 0 < r.natAbs)
      have hp := ten_pow_pos P
      positivity
    · rcases hfd1 with h | ⟨d, u, h, hd⟩
      · exact .inl (by rw [h])
      · exact .inr ⟨d, u, by rw [h], hd⟩
  · unfold Literal.denote
    have e : Literal.magnitude ⟨if r < 0 then some true else none, id, some fd⟩ =
      (r.natAbs : ℚ) / 10 ^ P := hmag
    rw [e]
    dsimp only
    have e2 : (r.natAbs : ℚ) = |(r : ℚ)| := by
      rw [← Int.cast_abs, Int.abs_eq_natAbs]; rfl
    rw [e2]
    by_cases hneg : r < 0
    · have : (r : ℚ) < 0 := by exact_mod_cast hneg
      rw [if_pos hneg, if_pos rfl, abs_of_neg this]; ring
    · have : (0 : ℚ) ≤ r := by exact_mod_cast not_lt.1 hneg
      rw [if_neg hneg, if_neg (by simp), abs_of_nonneg this]

end Fixnum
