import Verif.Props.ErrorMax

/-! # Property C120: an exact result is returned exactly

If the exact result of an operation has at most `P` decimals and lies in the range, every mode and
every build returns it.  There are no exceptions, not even for the types on which the `Nearest`
test of the code overflows (C07, C11, C12): that test is only made on a remainder. -/

namespace Fixnum

open Res Spec

variable {L : Layout} {P : Nat} {ε : Type}

theorem exact_of_roundTo {α : Type} {e : α} {r : Res α (FP L P)} {mode : RoundMode} {c : FP L P}
    (h : ExactOr e r (roundTo P mode (value c))) : r = .ok c :=
  (h.ok_iff c).2 (roundTo_value mode c).symm

/-- C120: `rmul` and `saturating_rmul`. -/
theorem C120_rmul {cfg : Cfg} (hv : Valid cfg L P) (a b c : FP L P) (mode : RoundMode)
    (h : value a * value b = value c) :
    FP.rmul cfg a b mode = .ok c ∧ (FP.saturatingRmul cfg a b mode : Res ε _) = .ok c := by
  have hz : (a.inner.toInt * b.inner.toInt).tmod (10 ^ P) = 0 := by
    have hm := mul_value_scaled a b
    have hp := ten_pow_ne P
    rw [h] at hm
    unfold value at hm
    push_cast at hm
    rw [div_mul_cancel₀ _ hp, eq_div_iff hp] at hm
    have hm' : c.inner.toInt * 10 ^ P = a.inner.toInt * b.inner.toInt := by exact_mod_cast hm
    rw [← hm']
    exact Int.mul_tmod_left _ _
  have key : FP.rmul cfg a b mode = .ok c := by
    have := C07_rmul_remainder_partial hv a b mode fun _ _ => by
      rw [hz]
      have h0 := Spec.half_pos L
      rw [rawMin_half, rawMax_half]
      omega
    rw [h] at this
    exact exact_of_roundTo this
  refine ⟨key, ?_⟩
  unfold FP.saturatingRmul
  rw [key, unwrapOr_ok]

example := C120_rmul (ε := Unit) (cfg := debugCfg) (by decide) (⟨1500000000⟩ : FP .i64 9) ⟨2500000000⟩
  ⟨3750000000⟩ .nearest
  (by rw [value_eq _ 1500000000 (by decide), value_eq _ 2500000000 (by decide),
    value_eq _ 3750000000 (by decide)]; norm_num)

example := C120_rmul (ε := Unit) (cfg := releaseCfg) (by decide)
  (⟨50000000000000000000000000000000000000⟩ : FP .i128 38) ⟨50000000000000000000000000000000000000⟩
  ⟨25000000000000000000000000000000000000⟩ .nearest
  (by rw [value_eq _ 50000000000000000000000000000000000000 (by decide),
    value_eq _ 25000000000000000000000000000000000000 (by decide)]; norm_num)

/-- C120: `rdiv`. -/
theorem C120_rdiv {cfg : Cfg} (hv : Valid cfg L P) (a b c : FP L P) (mode : RoundMode)
    (hb : value b ≠ 0) (h : value a = value c * value b) : FP.rdiv cfg a b mode = .ok c := by
  refine rdiv_exact hv a b c mode hb ?_ (by rw [h, mul_div_cancel_right₀ _ hb])
  have hp := ten_pow_ne P
  unfold value at h
  field_simp at h
  have h' : a.inner.toInt * 10 ^ P = c.inner.toInt * b.inner.toInt := by exact_mod_cast h
  rw [h']
  exact Int.mul_tmod_left _ _

example := C120_rdiv (cfg := debugCfg) (by decide) (⟨3750000000⟩ : FP .i64 9) ⟨-2500000000⟩
  ⟨-1500000000⟩ .nearest (by rw [value_eq _ (-2500000000) (by decide)]; norm_num)
  (by rw [value_eq _ 3750000000 (by decide), value_eq _ (-1500000000) (by decide),
    value_eq _ (-2500000000) (by decide)]; norm_num)

/-- C120: `rdiv` by an integer. -/
theorem C120_rdivInt (cfg : Cfg) (a c : FP L P) (n : BitVec L.bits) (mode : RoundMode)
    (hb : n.toInt ≠ 0) (h : value a = value c * n.toInt) :
    FP.rdivInt cfg a n mode = .ok c := by
  have hp := ten_pow_ne P
  have h' : a.inner.toInt = c.inner.toInt * n.toInt := by
    unfold value at h
    field_simp at h
    exact_mod_cast h
  have hz : a.inner.toInt.tmod n.toInt = 0 := by
    rw [h']; exact Int.mul_tmod_left _ _
  have := C12_rdivInt_partial cfg a n mode hb
    (by
      rintro ⟨h1, h2⟩
      have hc := (fits_iff L _).1 (toInt_fits c.inner)
      rw [h2, h1] at h'
      unfold rawMin rawMax at *
      omega)
    fun _ k => absurd hz k
  rw [h, mul_div_cancel_right₀ _ (by exact_mod_cast hb)] at this
  exact exact_of_roundTo this

example := C120_rdivInt debugCfg (⟨3750000000⟩ : FP .i64 9) ⟨1250000000⟩ 3 .nearest (by decide)
  (by rw [value_eq _ 3750000000 (by decide), value_eq _ 1250000000 (by decide)]
      have : (3 : BitVec Layout.i64.bits).toInt = 3 := by decide
      rw [this]; norm_num)

/-- C120: an integer divided by a fixed-point number. -/
theorem C120_intRdiv {cfg : Cfg} (hv : Valid cfg L P) (b c : FP L P) (n : BitVec L.bits)
    (mode : RoundMode) (hn : Representable L P (n.toInt : ℚ)) (hb : value b ≠ 0)
    (h : (n.toInt : ℚ) = value c * value b) : FP.intRdiv cfg n b mode = .ok c := by
  obtain ⟨l, hl, -, e⟩ := intRdiv_eq hv n b mode hn
  rw [e]
  exact C120_rdiv hv l b c mode hb (by rw [hl, h])

example := C120_intRdiv (cfg := debugCfg) (by decide) (⟨2500000000⟩ : FP .i64 9) ⟨1200000000⟩ 3
  .ceil ⟨⟨3000000000⟩, by
    rw [value_eq _ 3000000000 (by decide)]
    have : (3 : BitVec Layout.i64.bits).toInt = 3 := by decide
    rw [this]; norm_num⟩
  (by rw [value_eq _ 2500000000 (by decide)]; norm_num)
  (by rw [value_eq _ 1200000000 (by decide), value_eq _ 2500000000 (by decide)]
      have : (3 : BitVec Layout.i64.bits).toInt = 3 := by decide
      rw [this]; norm_num)

/-- C120: `recip`. -/
theorem C120_recip {cfg : Cfg} (hv : Valid cfg L P) (b c : FP L P) (mode : RoundMode)
    (h : value c * value b = 1) : FP.recip cfg b mode = .ok c := by
  obtain ⟨o, -, ho, -, e⟩ := recip_eq hv b mode
  rw [e]
  refine C120_rdiv hv o b c mode (fun k => ?_) (by rw [ho, h])
  rw [k, mul_zero] at h
  exact absurd h (by norm_num)

example := C120_recip (cfg := debugCfg) (by decide) (⟨8000000000⟩ : FP .i64 9) ⟨125000000⟩ .floor
  (by rw [value_eq _ 125000000 (by decide), value_eq _ 8000000000 (by decide)]; norm_num)

/-- C120: `half_sum`. -/
theorem C120_halfSum (cfg : Cfg) (a b c : FP L P) (mode : RoundMode)
    (h : value a + value b = 2 * value c) :
    (FP.halfSum cfg a b mode : Res ε _) = .ok c := by
  obtain ⟨r, e, v⟩ := halfSum_value (ε := ε) cfg a b mode
  have : (value a + value b) / 2 = value c := by rw [h]; ring
  rw [this, roundTo_value] at v
  rw [e, value_inj v]

example := C120_halfSum (ε := Unit) debugCfg (⟨1⟩ : FP .i64 9) ⟨-5⟩ ⟨-2⟩ .nearest
  (by rw [value_eq _ 1 (by decide), value_eq _ (-5) (by decide), value_eq _ (-2) (by decide)]
      norm_num)

/-- C120: `rsqrt`. -/
theorem C120_rsqrt {cfg : Cfg} (hv : Valid cfg L P) (a c : FP L P) (mode : RoundMode)
    (h0 : 0 ≤ value c) (h : value c ^ 2 = value a) : FP.rsqrt cfg a mode = .ok c := by
  obtain ⟨s, e, v⟩ := C22_rsqrt hv a (by rw [← h]; positivity) mode
  have hr : IsRoundedSqrt P mode (value a) (value c) := by
    have hs : √((value a : ℚ) : ℝ) = value c := by
      rw [← h]; push_cast
      exact Real.sqrt_sq (by exact_mod_cast h0)
    have hp : (0 : ℝ) < 1 / 10 ^ P := by positivity
    refine ⟨⟨c.inner.toInt, rfl⟩, ?_⟩
    cases mode <;> simp only [hs]
    · exact ⟨by linarith, le_refl _⟩
    · rw [sub_self, abs_zero]; positivity
    · exact ⟨le_refl _, by linarith⟩
  rw [e, value_inj (C22_unique P mode _ _ _ v hr)]

example := C120_rsqrt (cfg := debugCfg) (by decide) (⟨2250000000⟩ : FP .i64 9) ⟨1500000000⟩ .ceil
  (by rw [value_eq _ 1500000000 (by decide)]; norm_num)
  (by rw [value_eq _ 1500000000 (by decide), value_eq _ 2250000000 (by decide)]; norm_num)

/-- `MIN`, a power of two of units, is not a whole number if there are decimals. -/
theorem minValue_not_whole (hP : 1 ≤ P) (n : Int) : minValue L P ≠ n := by
  intro h
  unfold minValue at h
  rw [div_eq_iff (ten_pow_ne P)] at h
  have h' : rawMin L = n * 10 ^ P := by exact_mod_cast h
  have h5 : (5 : Int) ∣ 2 ^ (L.bits - 1) := by
    rw [← Int.dvd_neg]
    refine (show (5 : Int) ∣ n * 10 ^ P from ?_).trans (h' ▸ dvd_refl _)
    exact ((by norm_num : (5 : Int) ∣ 10).trans (dvd_pow_self _ (by omega))).mul_left _
  revert h5
  cases L <;> decide

/-- C120: `integral` of a whole number.  Only for a type without decimals is `MIN` whole; there
`integral` panics on it (C18). -/
theorem C120_integral {cfg : Cfg} (hv : Valid cfg L P) (a : FP L P) (n : Int) (mode : RoundMode)
    (h : value a = n) (hm : P = 0 → value a ≠ minValue L P) :
    ∃ i, (FP.integral cfg a mode : Res ε _) = .ok i ∧ i.toInt = n := by
  have hz : a.inner.toInt.tmod (10 ^ P) = 0 := by
    unfold value at h
    rw [div_eq_iff (ten_pow_ne P)] at h
    have h' : a.inner.toInt = n * 10 ^ P := by exact_mod_cast h
    rw [h']; exact Int.mul_tmod_left _ _
  obtain ⟨i, e, v⟩ := C18_integral_partial (ε := ε) hv a mode
    (fun k => if hP : P = 0 then hm hP k else minValue_not_whole (by omega) n (k ▸ h)) fun _ => by
    have h0 := Spec.half_pos L
    rw [hz, rawMax_half, abs_zero]
    omega
  exact ⟨i, e, by rw [v, h, round_int]⟩

example := C120_integral (ε := Unit) (cfg := debugCfg) (by decide) (⟨-7000000000⟩ : FP .i64 9) (-7)
  .nearest (by rw [value_eq _ (-7000000000) (by decide)]; norm_num) (by decide)

/-- C120: a text whose number has at most `P` decimals is read exactly, and so is every text of the
same number, whatever its sign, zeros and surrounding white space. -/
theorem C120_fromStr {cfg : Cfg} (hv : Valid cfg L P) (hP : 1 ≤ P) (s : List Char) (l : Literal)
    (c : FP L P) (hl : IsText s l) (h : l.denote = value c) : FP.fromStr cfg s = .ok c :=
  (C32_from_str_iff hv hP s c).2 ⟨l, hl, by rw [h, roundTo_value]⟩

example := C120_fromStr (cfg := debugCfg) (P := 3) (L := .i16) (by decide) (by decide)
  " -12.3450\n".toList ⟨some true, [1, 2], some [3, 4, 5, 0]⟩ ⟨-12345⟩
  ⟨⟨by simp, by simp⟩, [' '], ['\n'], by decide +kernel, by simp [whiteSpace],
    by simp [whiteSpace]⟩ (by
  rw [value_eq _ (-12345) (by decide)]
  have h1 : natOf [1, 2] = 12 := by decide
  have h2 : natOf [3, 4, 5, 0] = 3450 := by decide
  simp only [Literal.denote, Literal.magnitude, Literal.fracDigits, Option.getD_some, h1, h2]
  norm_num)

example : FP.fromStr debugCfg "+01.50000000000000".toList = .ok (⟨1500000000⟩ : FP .i64 9) := by
  decide +kernel

end Fixnum
