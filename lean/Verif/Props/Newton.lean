import Verif.Props.Clients
import Verif.Props.Sqrt
import Verif.Props.Division

/-! # Property C125: Newton's iteration

Client code: `y = x.half_sum(a.rdiv(x, Floor)?, Floor)` as long as the numbers get smaller. -/

namespace Fixnum

open Res Spec

variable {L : Layout} {P : Nat}

/-- The loop of the client: `let y = half_sum(x, a.rdiv(x)?); if y < x { x = y } else { return x }`. -/
def newtonRoot (cfg : Cfg) (a : FP L P) : Nat → FP L P → Res ArithErr (FP L P)
  | 0, _ => .fault .diverge
  | fuel + 1, x => do
    let q ← FP.rdiv cfg a x .floor
    let y ← FP.halfSum cfg x q .floor
    if FP.cmp y x = .lt then newtonRoot cfg a fuel y else .ok x

/-- The raw quotient. -/
theorem rdiv_floor_raw {cfg : Cfg} (hv : Valid cfg L P) (a x : FP L P) (hx : 0 < x.inner.toInt) :
    FP.rdiv cfg a x .floor = checkedFP L P (a.inner.toInt * 10 ^ P / x.inner.toInt) := by
  rw [rdiv_spec hv a x .floor hx.ne' (by simp), ← round_div .floor _ hx.ne']
  congr 1
  obtain ⟨n, hn⟩ := Int.eq_ofNat_of_zero_le hx.le
  rw [hn]
  exact Rat.floor_intCast_div_natCast _ n

/-- One step on integers stays above the root. -/
theorem newton_above {N x : Int} (hN : 0 ≤ N) (hx : 0 < x) :
    N < ((x + N / x) / 2 + 1) * ((x + N / x) / 2 + 1) := by
  have h1 := Int.lt_mul_ediv_self_add (x := N) hx
  set q := N / x
  have h2 : x + q + 1 ≤ 2 * ((x + q) / 2 + 1) := by omega
  set y := (x + q) / 2 + 1
  have hq : 0 ≤ q := Int.ediv_nonneg hN hx.le
  have h3 : N < x * (q + 1) := by linarith [mul_add x q 1]
  nlinarith [sq_nonneg (x - (q + 1)), mul_self_le_mul_self (by omega : 0 ≤ x + q + 1) h2]

/-- The quotient fits as long as the divisor is not below the root. -/
theorem newton_fits {N x M : Int} (hM : 3 ≤ M) (hN : 0 ≤ N) (hx : 0 < x) (h : N < (x + 1) * (x + 1))
    (hm : N ≤ M * (M - 1)) : N / x ≤ M := by
  by_contra hc
  have h1 : (M + 1) * x ≤ N := by
    have := Int.ediv_mul_le N hx.ne'
    nlinarith
  have h2 : M - 1 ≤ x := by
    by_contra hc
    nlinarith
  nlinarith

theorem newton_cmp (x y : FP L P) : FP.cmp y x = .lt ↔ y.inner.toInt < x.inner.toInt := by
  rw [C54_cmp, compare_lt_iff_lt, value_lt_iff]

theorem coef_lt_rawMax {cfg : Cfg} (hv : Valid cfg L P) : (10 : Int) ^ P ≤ rawMax L - 1 := by
  have h := hv.1
  have hm : rawMax L % 2 = 1 ∧ 3 ≤ rawMax L := by cases L <;> decide
  rcases P with _ | P
  · simp only [pow_zero]; omega
  · rw [pow_succ] at h ⊢
    omega

theorem newtonRoot_spec {cfg : Cfg} (hv : Valid cfg L P) (a : FP L P) (ha : 0 < a.inner.toInt)
    (k : Nat) (n : Nat) (hn : k < n) (x : FP L P) (hx : 0 < x.inner.toInt)
    (h : a.inner.toInt * 10 ^ P < (x.inner.toInt + 1) * (x.inner.toInt + 1))
    (hd : x.inner.toInt - (Nat.sqrt (a.inner.toInt * 10 ^ P).toNat : Nat) < 2 ^ k) :
    ∃ r, newtonRoot cfg a n x = .ok r ∧
      r.inner.toInt = (Nat.sqrt (a.inner.toInt * 10 ^ P).toNat : Nat) := by
  have hp : (0 : Int) < 10 ^ P := by positivity
  have hN : 0 < a.inner.toInt * 10 ^ P := Int.mul_pos ha hp
  have hM : 3 ≤ rawMax L := by cases L <;> decide
  have hmax : a.inner.toInt * 10 ^ P ≤ rawMax L * (rawMax L - 1) := by
    have h1 := coef_lt_rawMax hv
    have h2 : a.inner.toInt ≤ rawMax L := by
      exact (toInt_fits a.inner).2
    exact mul_le_mul h2 h1 hp.le (by omega)
  set N := a.inner.toInt * 10 ^ P with hNdef
  set s : Int := ((Nat.sqrt N.toNat : Nat) : Int) with hs
  have s1 : s * s ≤ N := by
    have := Nat.sqrt_le N.toNat
    have e : (N.toNat : Int) = N := Int.toNat_of_nonneg hN.le
    rw [← e, hs]; exact_mod_cast this
  have s2 : N < (s + 1) * (s + 1) := by
    have := Nat.lt_succ_sqrt N.toNat
    have e : (N.toNat : Int) = N := Int.toNat_of_nonneg hN.le
    rw [← e, hs]; exact_mod_cast this
  have s0 : 0 < s := by
    by_contra hc
    have : 0 ≤ s := by rw [hs]; exact Int.natCast_nonneg _
    have : s = 0 := by omega
    rw [this] at s2
    omega
  have above : ∀ z : Int, 0 ≤ z → N < (z + 1) * (z + 1) → s ≤ z := by
    intro z hz hlt
    by_contra hc
    nlinarith
  have step : ∀ x : FP L P, 0 < x.inner.toInt → N < (x.inner.toInt + 1) * (x.inner.toInt + 1) →
      ∀ n, (x.inner.toInt = s → newtonRoot cfg a (n + 1) x = .ok x) ∧
        (s < x.inner.toInt → ∃ y : FP L P, newtonRoot cfg a (n + 1) x = newtonRoot cfg a n y ∧
          N < (y.inner.toInt + 1) * (y.inner.toInt + 1) ∧ 0 < y.inner.toInt ∧
          2 * (y.inner.toInt - s) ≤ x.inner.toInt - s) := by
    intro x hx h n
    have q0 : 0 ≤ N / x.inner.toInt := Int.ediv_nonneg hN.le hx.le
    have hf : Fits L.bits (N / x.inner.toInt) := by
      refine ⟨le_trans ?_ q0, newton_fits hM hN.le hx h hmax⟩
      cases L <;> decide
    obtain ⟨y, y1, y2⟩ := half_floor_raw (ε := ArithErr) cfg x
      (⟨BitVec.ofInt _ (N / x.inner.toInt)⟩ : FP L P)
    rw [toInt_ofInt_of_fits (bits_pos L) hf] at y2
    have hy := newton_above hN.le hx
    rw [← y2] at hy
    have y0 : 0 ≤ y.inner.toInt := by omega
    have ys := above _ y0 hy
    have e : newtonRoot cfg a (n + 1) x =
        if FP.cmp y x = .lt then newtonRoot cfg a n y else .ok x := by
      conv_lhs => unfold newtonRoot
      rw [rdiv_floor_raw hv a x hx]
      unfold checkedFP
      rw [if_pos hf, ok_bind, y1, ok_bind]
    rw [e]
    refine ⟨fun hxs => ?_, fun hxs => ?_⟩
    · rw [if_neg]
      rw [newton_cmp]
      omega
    · have hq : N / x.inner.toInt ≤ s := by
        rw [← Int.lt_add_one_iff]
        refine Int.ediv_lt_of_lt_mul hx ?_
        nlinarith
      have hlt : y.inner.toInt < x.inner.toInt := by omega
      refine ⟨y, ?_, hy, by omega, by omega⟩
      rw [if_pos ((newton_cmp x y).2 hlt)]
  induction k generalizing x n with
  | zero =>
    obtain ⟨n, rfl⟩ : ∃ m, n = m + 1 := ⟨n - 1, by omega⟩
    have hxs : x.inner.toInt = s := by
      have := above _ hx.le h
      simp only [pow_zero] at hd
      omega
    exact ⟨x, (step x hx h n).1 hxs, hxs⟩
  | succ k ih =>
    obtain ⟨n, rfl⟩ : ∃ m, n = m + 1 := ⟨n - 1, by omega⟩
    rcases (above _ hx.le h).lt_or_eq with hlt | heq
    · obtain ⟨y, e, h1, h2, h3⟩ := (step x hx h n).2 hlt
      rw [e]
      rw [pow_succ] at hd
      exact ih n (by omega) y h2 h1 (by omega)
    · exact ⟨x, (step x hx h n).1 heq.symm, heq.symm⟩

/-- The raw form of a comparison of a number with a square. -/
theorem lt_square_iff (a : FP L P) (z : Int) :
    value a < (z : ℚ) / 10 ^ P * ((z : ℚ) / 10 ^ P) ↔ a.inner.toInt * 10 ^ P < z * z := by
  have hp := ten_pow_pos P
  unfold value
  rw [div_mul_div_comm, div_lt_div_iff₀ hp (mul_pos hp hp)]
  constructor
  · intro h
    have h : (a.inner.toInt : ℚ) * 10 ^ P < z * z := by
      refine lt_of_mul_lt_mul_right ?_ hp.le
      linarith
    exact_mod_cast h
  · intro h
    have h : (a.inner.toInt : ℚ) * 10 ^ P < z * z := by exact_mod_cast h
    nlinarith [mul_lt_mul_of_pos_right h hp]

theorem succ_value (x : FP L P) :
    value x + value (FP.epsilon : FP L P) = ((x.inner.toInt + 1 : Int) : ℚ) / 10 ^ P := by
  rw [C52_epsilon.1]
  unfold value
  push_cast
  ring

/-- C125: from any positive start that is not a unit or more below the root, the iteration ends within
one round per bit of the layout, and returns exactly what `rsqrt` returns with `Floor`. -/
theorem C125_newton {cfg : Cfg} (hv : Valid cfg L P) (a x : FP L P) (ha : 0 < value a)
    (hx : 0 < value x)
    (h : value a < (value x + value (FP.epsilon : FP L P)) * (value x + value (FP.epsilon : FP L P)))
    (n : Nat) (hn : L.bits ≤ n) : newtonRoot cfg a n x = FP.rsqrt cfg a .floor := by
  rw [succ_value, lt_square_iff] at h
  have pos : ∀ y : FP L P, 0 < value y → 0 < y.inner.toInt := by
    intro y hy
    rw [← C52_zero (L := L) (P := P), value_lt_iff] at hy
    exact lt_of_le_of_lt (by cases L <;> rfl) hy
  have hb := bits_ge L
  obtain ⟨r, h1, h2⟩ := newtonRoot_spec hv a (pos a ha) (L.bits - 1) n (by omega) x (pos x hx) h (by
    have h1 := (toInt_fits x.inner).2
    have h2 : iMax L.bits < 2 ^ (L.bits - 1) := by cases L <;> decide
    omega)
  obtain ⟨h3, h4⟩ := rsqrt_spec hv a (pos a ha).le .floor
  rw [h1, h4]
  congr 1
  have : r.inner = BitVec.ofInt _ (sqrtRaw .floor (a.inner.toInt * 10 ^ P).toNat : Nat) := by
    apply toInt_inj'
    rw [toInt_ofInt_of_fits (bits_pos L) h3, h2]
    rfl
  cases r
  simp_all

/-- The root of 2 with 9 digits, from 2. -/
example : newtonRoot debugCfg (⟨2000000000⟩ : FP .i64 9) 64 ⟨2000000000⟩ =
    FP.rsqrt debugCfg ⟨2000000000⟩ .floor := by
  have v : value (⟨2000000000⟩ : FP .i64 9) = 2 := by
    rw [value_eq _ 2000000000 (by decide)]; norm_num
  refine C125_newton (by decide) _ _ (by rw [v]; norm_num) (by rw [v]; norm_num) ?_ 64 (by decide)
  rw [v, C52_epsilon.1]
  norm_num
example : newtonRoot debugCfg (⟨2000000000⟩ : FP .i64 9) 64 ⟨2000000000⟩ = .ok ⟨1414213562⟩ := by
  decide +kernel

/-- C125: from a start that is lower, the iteration returns the start, unless the quotient overflows. -/
theorem C125_low_start {cfg : Cfg} (hv : Valid cfg L P) (a x : FP L P) (hx : 0 < value x)
    (h : (value x + value (FP.epsilon : FP L P)) * (value x + value (FP.epsilon : FP L P)) ≤ value a)
    (n : Nat) :
    newtonRoot cfg a (n + 1) x = .ok x ∨ newtonRoot cfg a (n + 1) x = .err .overflow := by
  rw [← not_lt, succ_value, lt_square_iff, not_lt] at h
  have hx : 0 < x.inner.toInt := by
    rw [← C52_zero (L := L) (P := P), value_lt_iff] at hx
    exact lt_of_le_of_lt (by cases L <;> rfl) hx
  unfold newtonRoot
  rw [rdiv_floor_raw hv a x hx]
  unfold checkedFP
  split
  · rename_i hf
    rw [ok_bind]
    obtain ⟨y, y1, y2⟩ := half_floor_raw (ε := ArithErr) cfg x
      (⟨BitVec.ofInt _ (a.inner.toInt * 10 ^ P / x.inner.toInt)⟩ : FP L P)
    rw [toInt_ofInt_of_fits (bits_pos L) hf] at y2
    rw [y1, ok_bind, if_neg]
    · exact .inl rfl
    · have : x.inner.toInt + 2 ≤ a.inner.toInt * 10 ^ P / x.inner.toInt := by
        rw [Int.le_ediv_iff_mul_le hx]
        nlinarith
      rw [newton_cmp]
      omega
  · exact .inr rfl

/-- From 1 the root of 9 is not found; from 0.000000001 the quotient of 99 overflows. -/
example : newtonRoot debugCfg (⟨9000000000⟩ : FP .i64 9) 64 ⟨1000000000⟩ = .ok ⟨1000000000⟩ ∧
    newtonRoot debugCfg (⟨99000000000⟩ : FP .i64 9) 64 ⟨1⟩ = .err .overflow := by decide +kernel
example := C125_low_start (cfg := debugCfg) (by decide) (⟨9000000000⟩ : FP .i64 9) ⟨1000000000⟩
  (by decide +kernel) (by decide +kernel) 63

/-- C125: for zero every start ends in a division by zero, as the iteration reaches zero. -/
theorem C125_zero {cfg : Cfg} (hv : Valid cfg L P) (a x : FP L P) (ha : value a = 0)
    (hx : 0 ≤ value x) (n : Nat) (hn : L.bits ≤ n) :
    newtonRoot cfg a n x = .err .divisionByZero := by
  have ha := (value_eq_zero_iff a).1 ha
  have hx : 0 ≤ x.inner.toInt := (value_nonneg_iff x).1 hx
  have key : ∀ k n (x : FP L P), k < n → 0 ≤ x.inner.toInt → x.inner.toInt < 2 ^ k →
      newtonRoot cfg a n x = .err .divisionByZero := by
    intro k
    induction k with
    | zero =>
      intro n x hn h0 h1
      obtain ⟨n, rfl⟩ : ∃ m, n = m + 1 := ⟨n - 1, by omega⟩
      unfold newtonRoot
      rw [(C10_rdiv_zero_iff hv a x .floor).2
        ((value_eq_zero_iff x).2 (by simp only [pow_zero] at h1; omega))]
      rfl
    | succ k ih =>
      intro n x hn h0 h1
      obtain ⟨n, rfl⟩ : ∃ m, n = m + 1 := ⟨n - 1, by omega⟩
      rcases h0.eq_or_lt with hz | hpos
      · unfold newtonRoot
        rw [(C10_rdiv_zero_iff hv a x .floor).2 ((value_eq_zero_iff x).2 hz.symm)]
        rfl
      · have hf : Fits L.bits (0 : Int) := by cases L <;> decide
        obtain ⟨y, y1, y2⟩ := half_floor_raw (ε := ArithErr) cfg x (⟨BitVec.ofInt _ 0⟩ : FP L P)
        rw [toInt_ofInt_of_fits (bits_pos L) hf] at y2
        unfold newtonRoot
        rw [rdiv_floor_raw hv a x hpos, ha, zero_mul, Int.zero_ediv]
        unfold checkedFP
        rw [pow_succ] at h1
        rw [if_pos hf, ok_bind, y1, ok_bind, if_pos ((newton_cmp x y).2 (by omega))]
        exact ih n y (by omega) (by omega) (by omega)
  have hb := bits_ge L
  refine key (L.bits - 1) n x (by omega) hx ?_
  have h1 := (toInt_fits x.inner).2
  have h2 : iMax L.bits < 2 ^ (L.bits - 1) := by cases L <;> decide
  omega

example : newtonRoot debugCfg (⟨0⟩ : FP .i64 9) 64 ⟨1000000000⟩ = .err .divisionByZero := by
  decide +kernel
example := C125_zero (cfg := debugCfg) (by decide) (⟨0⟩ : FP .i64 9) ⟨1000000000⟩ (by decide +kernel)
  (by decide +kernel) 64 (by decide)

end Fixnum
