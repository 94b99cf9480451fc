import Verif.Props.Monotone
import Verif.Props.Text

/-! # Property C115: different ways to compute the same number agree

Each theorem compares two calls of the API with each other: which one a caller chooses makes no
difference. -/

namespace Fixnum

open Res Spec

variable {L : Layout} {P : Nat} {ε : Type}

/-! ## Integers and the numbers they are converted to -/

theorem tryFromInt_toInt {cfg : Cfg} (hv : Valid cfg L P) {n : Int} {y : FP L P}
    (h : (FP.tryFromInt cfg n : Res ConvErr (FP L P)) = .ok y) :
    value y = n ∧ y.inner.toInt = n * 10 ^ P := by
  have h2 := ((C27_try_from_int hv n).ok_iff y).1 h
  refine ⟨h2, ?_⟩
  unfold value at h2
  rw [div_eq_iff (ten_pow_ne P)] at h2
  exact_mod_cast h2

/-- C115: `cmul` by an integer is `rmul` by the number it is converted to, in every rounding mode and
build, with the same error. -/
theorem C115_cmul_rmul {cfg : Cfg} (hv : Valid cfg L P) (a y : FP L P) (n : BitVec L.bits)
    (mode : RoundMode) (h : (FP.tryFromInt cfg n.toInt : Res ConvErr _) = .ok y) :
    FP.rmul cfg a y mode = FP.cmul a n := by
  obtain ⟨h1, h2⟩ := tryFromInt_toInt hv h
  have k := C07_rmul_remainder_partial hv a y mode (by
    intro _ _
    rw [h2, ← mul_assoc, Int.mul_tmod_left]
    have := half_pos L
    rw [rawMin_half, rawMax_half]; omega)
  have e : roundTo P mode (value a * value y) = value a * (n.toInt : ℚ) := by
    have hp := ten_pow_ne P
    rw [h1]
    have : value a * (n.toInt : ℚ) * 10 ^ P = ((a.inner.toInt * n.toInt : Int) : ℚ) := by
      unfold value; push_cast; field_simp
    unfold roundTo
    rw [this, round_int, ← this, mul_div_assoc, div_self hp, mul_one]
  rw [e] at k
  exact k.unique (C03_cmul_exact a n)

example := C115_cmul_rmul (cfg := ⟨true, true, true, true⟩) (by decide) (⟨-1234⟩ : FP .i64 3)
  ⟨-7000⟩ (-7) .nearest (by decide +kernel)

/-- C115: an integer divided by a number is the converted integer divided by it; in every mode and
build, with the same errors and panics. -/
theorem C115_int_rdiv {cfg : Cfg} (y x : FP L P) (n : BitVec L.bits)
    (mode : RoundMode) (h : (FP.tryFromInt cfg n.toInt : Res ConvErr _) = .ok y) :
    FP.intRdiv cfg n x mode = FP.rdiv cfg y x mode := by
  unfold FP.intRdiv
  rw [h]; rfl

example := C115_int_rdiv (cfg := ⟨true, true, true, true⟩) (⟨-7000⟩ : FP .i64 3) ⟨-1234⟩
  (-7) .nearest (by decide +kernel)

/-- C115: dividing by an integer is dividing by the number it is converted to, for the directed
modes; only `MIN / -1` differs. -/
theorem C115_rdiv_int {cfg : Cfg} (hv : Valid cfg L P) (a y : FP L P) (n : BitVec L.bits)
    (mode : RoundMode) (hm : mode ≠ .nearest)
    (hmin : ¬ (value a = minValue L P ∧ n.toInt = -1))
    (h : (FP.tryFromInt cfg n.toInt : Res ConvErr _) = .ok y) :
    FP.rdivInt cfg a n mode = FP.rdiv cfg a y mode := by
  obtain ⟨h1, -⟩ := tryFromInt_toInt hv h
  by_cases hz : n.toInt = 0
  · have e1 : FP.rdiv cfg a y mode = .err .divisionByZero :=
      (C10_rdiv_zero_iff hv a y mode).2 (by rw [h1, hz]; rfl)
    rw [e1, (C12_rdivInt_zero_iff cfg a n mode).2 hz]
  · have k1 := C12_rdivInt_partial cfg a n mode hz (fun k => hmin ⟨by
      unfold value minValue; rw [k.1], k.2⟩) (fun k => absurd k hm)
    have k2 := C10_rdiv_directed hv a y mode hm (by rw [h1]; exact_mod_cast hz)
    rw [h1] at k2
    exact k1.unique k2

example := C115_rdiv_int (cfg := ⟨true, true, true, true⟩) (by decide) (⟨-1234⟩ : FP .i64 3)
  ⟨-7000⟩ (-7) .floor (by decide) (by decide +kernel) (by decide +kernel)

/-- Outside C115: `MIN.rdiv(-1)` panics, `MIN.rdiv(-1.0)` is `Err(Overflow)`. -/
theorem C115_rdiv_int_outside_domain :
    FP.rdivInt ⟨true, true, true, true⟩ (FP.min : FP .i64 3) (-1) .floor = .panic ∧
    FP.rdiv ⟨true, true, true, true⟩ (FP.min : FP .i64 3) ⟨-1000⟩ .floor = .err .overflow := by
  decide +kernel

/-- C115: an integer of the layout as a decimal with exponent 0, and its conversion. -/
theorem C115_from_decimal {cfg : Cfg} (hv : Valid cfg L P) (n : BitVec L.bits) (x : FP L P) :
    (FP.fromDecimal cfg n 0 : Res ConvErr _) = .ok x ↔
      (FP.tryFromInt cfg n.toInt : Res ConvErr _) = .ok x := by
  rw [(C24_from_decimal_nonpos hv n 0 (by omega)).ok_iff, (C27_try_from_int hv n.toInt).ok_iff]
  simp

example := (C115_from_decimal (cfg := ⟨true, true, true, true⟩) (by decide) (-7) (⟨-7000⟩ : FP .i64 3)).1
  (by decide +kernel)

/-- C115: the text of an integer, however written, and its conversion. -/
theorem C115_from_str {cfg : Cfg} (hv : Valid cfg L P) (s : List Char) (l : Literal) (n : Int)
    (x : FP L P) (hs : IsText s l) (hf : l.fracDigits.length ≤ P) (hn : l.denote = n) :
    FP.fromStrExact cfg s = .ok x ↔ (FP.tryFromInt cfg n : Res ConvErr _) = .ok x := by
  obtain ⟨-, h2⟩ := parseStr_text (P := P) hv true hs
  unfold FP.fromStrExact
  rw [(h2 fun h => absurd h.1 (not_lt.2 hf)).ok_iff, rawMag_denote l hf, hn,
    (C27_try_from_int hv n).ok_iff]

example := (C115_from_str (cfg := ⟨true, true, true, true⟩) (by decide) " -07.00".toList
  ⟨some true, [0, 7], some [0, 0]⟩ (-7) (⟨-7000⟩ : FP .i64 3)
  ⟨⟨by decide, by decide⟩, [' '], [], by decide, by decide, by decide⟩ (by decide)
  (by norm_num [Literal.denote, Literal.magnitude, natOf, Literal.fracDigits])).1 (by decide +kernel)

/-! ## Sums -/

/-- C115: subtraction is addition of the negated number. -/
theorem C115_csub_cadd (a b b' : FP L P) (h : FP.cneg b = .ok b') :
    FP.csub a b = FP.cadd a b' := by
  have k := C01_cadd_exact a b'
  rw [cneg_value h, ← sub_eq_add_neg] at k
  exact (C02_csub_exact a b).unique k

example := C115_csub_cadd (⟨-32000⟩ : FP .i16 2) ⟨800⟩ ⟨-800⟩ (by decide)

theorem representable_le {q r : ℚ} (h : Representable L P q) (hi : ∃ z : Int, r = (z : ℚ) / 10 ^ P)
    (h1 : 0 ≤ r → r ≤ q) (h2 : r ≤ 0 → q ≤ r) : Representable L P r := by
  obtain ⟨z, rfl⟩ := hi
  obtain ⟨x, rfl⟩ := h
  have hp := ten_pow_pos P
  rw [representable_iff]
  have hx := (representable_iff (P := P) (L := L) (z := x.inner.toInt)).1 ⟨x, rfl⟩
  unfold value at h1 h2
  rw [div_le_div_iff_of_pos_right hp] at h1 h2
  have k1 : 0 ≤ z → z ≤ x.inner.toInt := fun k => by
    exact_mod_cast h1 (div_nonneg (by exact_mod_cast k) hp.le)
  have k2 : z ≤ 0 → x.inner.toInt ≤ z := fun k => by
    exact_mod_cast h2 (div_nonpos_of_nonpos_of_nonneg (by exact_mod_cast k) hp.le)
  have := half_pos L
  rw [fits_half] at *
  omega

instance : LawfulMonad (Res ε) := LawfulMonad.mk' _
  (fun x => by cases x <;> rfl) (fun _ _ => rfl) (fun x _ _ => by cases x <;> rfl)

/-- C115: `cmul` by an integer that is not negative is repeated `cadd`; if the product fits, so does
every partial sum, and if not, one of the additions reports the overflow. -/
theorem C115_repeated_cadd (a : FP L P) (k : Nat) (hk : (k : Int) ≤ rawMax L) :
    (List.replicate k a).foldlM FP.cadd FP.zero = FP.cmul a (BitVec.ofNat L.bits k) := by
  have toInt {k : Nat} (hk : (k : Int) ≤ rawMax L) : (BitVec.ofNat L.bits k).toInt = k := by
    have := toInt_ofInt_of_fits (w := L.bits) (z := (k : Int)) (bits_pos L)
      ((fits_iff L _).2 ⟨by have := half_pos L; rw [rawMin_half]; omega, hk⟩)
    simpa using this
  induction k with
  | zero =>
    have h := C03_cmul_exact a (BitVec.ofNat L.bits 0)
    rw [toInt hk] at h
    refine Eq.symm ((h.ok_iff _).2 ?_)
    rw [C52_zero]; simp
  | succ k ih =>
    have hk' : (k : Int) ≤ rawMax L := by push_cast at hk; omega
    have h1 := C03_cmul_exact a (BitVec.ofNat L.bits k)
    have h2 := C03_cmul_exact a (BitVec.ofNat L.bits (k + 1))
    rw [toInt hk'] at h1
    rw [toInt hk] at h2
    rw [List.replicate_succ', List.foldlM_append, ih hk']
    by_cases hr : Representable L P (value a * ((k : Int) : ℚ))
    · obtain ⟨c, hc, ec⟩ := h1.1 hr
      rw [hc]
      have h3 := C01_cadd_exact c a
      rw [ec, show value a * ((k : Int) : ℚ) + value a = value a * ((k + 1 : Nat) : Int) by
        push_cast; ring] at h3
      have h4 := h3.unique h2
      rw [← h4]
      simp only [List.foldlM_cons, List.foldlM_nil]
      change (FP.cadd c a >>= fun s => pure s) = _
      rw [bind_pure]
    · rw [h1.2 hr, h2.2 fun hq => hr (representable_le hq
        ⟨a.inner.toInt * k, by unfold value; push_cast; ring⟩ ?_ ?_)]
      · rfl
      · intro h; push_cast at h ⊢
        rcases le_or_gt 0 (value a) with q | q
        · linarith
        · have : (k : ℚ) ≤ 0 := by
            by_contra w; rw [not_le] at w
            exact absurd (mul_neg_of_neg_of_pos q w) (not_lt.2 h)
          have k0 : (k : ℚ) = 0 := le_antisymm this (by positivity)
          exfalso; apply hr
          refine ⟨FP.zero, ?_⟩
          rw [C52_zero]; push_cast; rw [k0]; ring
      · intro h; push_cast at h ⊢
        rcases le_or_gt (value a) 0 with q | q
        · linarith
        · have : (k : ℚ) ≤ 0 := by
            by_contra w; rw [not_le] at w
            exact absurd (mul_pos q w) (not_lt.2 h)
          have k0 : (k : ℚ) = 0 := le_antisymm this (by positivity)
          exfalso; apply hr
          refine ⟨FP.zero, ?_⟩
          rw [C52_zero]; push_cast; rw [k0]; ring

example := C115_repeated_cadd (⟨-10000⟩ : FP .i16 2) 4 (by decide +kernel)

/-! ## Means -/

/-- C115: `half_sum` is half of the sum if that exists; for `Nearest` if not both are negative. -/
theorem C115_half_sum (cfg : Cfg) (a b s : FP L P) (mode : RoundMode)
    (hm : mode = .nearest → ¬ (value a < 0 ∧ value b < 0)) (h : FP.cadd a b = .ok s) :
    FP.rdivInt cfg s 2 mode = FP.halfSum cfg a b mode := by
  have hw := bits_ge L
  have h2 : (2 : BitVec L.bits).toInt = 2 := by cases L <;> decide
  have k := C12_rdivInt_small_partial cfg s 2 mode (by rw [h2]; decide) (by rw [h2]; omega)
    (by rw [h2]; cases L <;> decide)
  rw [h2, C01_cadd_ok a b s h] at k
  push_cast at k
  have : ∃ r, (FP.halfSum cfg a b mode : Res ArithErr _) = .ok r ∧
      value r = roundTo P mode ((value a + value b) / 2) := by
    by_cases e : mode = .nearest
    · subst e; exact C17_half_sum_ties_partial cfg a b (hm rfl)
    · exact C16_half_sum_directed cfg a b mode e
  obtain ⟨r, hr, e⟩ := this
  rw [hr, k.ok_iff]
  exact e

example := C115_half_sum ⟨true, true, true, true⟩ (⟨-1235⟩ : FP .i64 3) ⟨1000⟩ ⟨-235⟩ .nearest
  (by decide +kernel) (by decide +kernel)

/-- Outside C115: the mean of `-0.001` and `-0.002`, rounded to nearest. -/
theorem C115_half_sum_outside_domain :
    (FP.cadd (⟨-1⟩ : FP .i64 3) ⟨-2⟩ >>= fun s => FP.rdivInt ⟨true, true, true, true⟩ s 2 .nearest) =
      .ok ⟨-2⟩ ∧
    (FP.halfSum ⟨true, true, true, true⟩ (⟨-1⟩ : FP .i64 3) ⟨-2⟩ .nearest : Res ArithErr _) =
      .ok ⟨-1⟩ := by decide +kernel

/-! ## Saturating and checked operations -/

/-- C115: where the checked operation returns a number, the saturating one returns the same. -/
theorem C115_saturating (cfg : Cfg) (a b c : FP L P) (n : BitVec L.bits) (mode : RoundMode) :
    (FP.cadd a b = .ok c → FP.saturatingAdd a b = c) ∧
    (FP.csub a b = .ok c → FP.saturatingSub a b = c) ∧
    (FP.cmul a n = .ok c → FP.saturatingMul a n = c) ∧
    (FP.rmul cfg a b mode = .ok c → (FP.saturatingRmul cfg a b mode : Res ε _) = .ok c) := by
  refine ⟨fun h => value_inj ?_, fun h => value_inj ?_, fun h => value_inj ?_, fun h => ?_⟩
  · rw [C05_saturating_add, ← C01_cadd_ok a b c h, clamp_value]
  · rw [C05_saturating_sub, ← C02_csub_ok a b c h, clamp_value]
  · rw [C06_saturating_mul, ← ((C03_cmul_exact a n).ok_iff c).1 h, clamp_value]
  · unfold FP.saturatingRmul
    rw [h]; rfl

example := (C115_saturating (ε := Unit) ⟨true, true, true, true⟩ (⟨-12000⟩ : FP .i16 2) ⟨250⟩ ⟨-30000⟩
  0 .nearest).2.2.2 (by decide +kernel)

/-! ## Rounding to integers -/

/-- C115: rounding towards zero by the number one is `floor` from zero upwards and `ceil` below. -/
theorem C115_round_towards_zero {cfg : Cfg} (hv : Valid cfg L P) (x one r : FP L P)
    (h1 : value one = 1) (hm : value x ≠ minValue L P) :
    (0 ≤ value x → (FP.floor cfg x : Res ε _) = .ok r → FP.roundTowardsZeroBy x one = r) ∧
    (value x ≤ 0 → (FP.ceil cfg x : Res ε _) = .ok r → FP.roundTowardsZeroBy x one = r) := by
  have e := C20_truncated x one (by rw [h1]; norm_num)
  rw [h1, div_one, mul_one] at e
  refine ⟨fun h hr => value_inj ?_, fun h hr => value_inj ?_⟩
  · rw [e, if_pos h, exactOrPanic_ok (C19_floor hv x hm) hr]
  · rw [e, exactOrPanic_ok (C19_ceil hv x hm) hr]
    split
    · rw [le_antisymm h ‹_›]; simp
    · rfl

example := (C115_round_towards_zero (ε := Unit) (cfg := ⟨true, true, true, true⟩) (by decide)
  (⟨-1234⟩ : FP .i64 3) ⟨1000⟩ ⟨-1000⟩ (by decide +kernel) (by decide +kernel)).2 (by decide +kernel)
  (by decide +kernel)

/-- C115: `integral` of a number and `floor`, `ceil`, `round`: converting the integer gives the
number. -/
theorem C115_integral {cfg : Cfg} (x r : FP L P) (i : BitVec L.bits) (mode : RoundMode)
    (hv : Valid cfg L P) (hi : (FP.integral cfg x mode : Res ε _) = .ok i)
    (hr : (match mode with
      | .floor => FP.floor cfg x
      | .ceil => FP.ceil cfg x
      | .nearest => FP.round cfg x : Res ε _) = .ok r) :
    (FP.tryFromInt cfg i.toInt : Res ConvErr _) = .ok r := by
  have hu := fromDecimal_unwrap (ε := ε) hv i
  have : (unwrap (FP.fromDecimal cfg i 0 : Res ConvErr (FP L P)) : Res ε (FP L P)) = .ok r := by
    cases mode <;> dsimp only at hr
    · unfold FP.ceil at hr; rw [hi] at hr; exact hr
    · unfold FP.round at hr; rw [hi] at hr; exact hr
    · unfold FP.floor at hr; rw [hi] at hr; exact hr
  rw [(C27_try_from_int hv i.toInt).ok_iff]
  exact exactOrPanic_ok hu this

example := C115_integral (ε := Unit) (cfg := ⟨true, true, true, true⟩) (⟨-1534⟩ : FP .i64 3) ⟨-2000⟩
  (-2) .nearest (by decide) (by decide +kernel) (by decide +kernel)

end Fixnum
