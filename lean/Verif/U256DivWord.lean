import Verif.U256Basic

/-! # Helper lemmas: correctness of `div_mod_word` (128-by-64 bit division) -/

namespace Fixnum

open Res

variable {ε : Type}

namespace U256

/-- If the loop test fires, the trial digit is too large. -/
theorem trial_too_big {b y1 y0 q r d : Nat} (h : b * r + d < q * y0) :
    ((q * y1 + r) * b + d) / (y1 * b + y0) < q := by
  rw [Nat.div_lt_iff_lt_mul (by
    rcases Nat.eq_zero_or_pos (y1 * b + y0) with h0 | h0
    · have : y0 = 0 := by omega
      subst this; simp at h
    · exact h0)]
  nlinarith

/-- If the test does not fire, the trial digit is not too large. -/
theorem trial_ok {b y1 y0 q r d : Nat} (hy : 0 < y1 * b + y0) (h : q * y0 ≤ b * r + d) :
    q ≤ ((q * y1 + r) * b + d) / (y1 * b + y0) := by
  rw [Nat.le_div_iff_mul_le hy]
  nlinarith

theorem dmwLoop_spec (cfg : Cfg) (yn1 yn0 un : W64) (hy1 : 2 ^ 31 ≤ yn1.toNat)
    (hy1' : yn1.toNat < 2 ^ 32) (hy0 : yn0.toNat < 2 ^ 32) (hun : un.toNat < 2 ^ 32) (Q u : Nat)
    (hQ : Q = (u * 2 ^ 32 + un.toNat) / (yn1.toNat * 2 ^ 32 + yn0.toNat)) (hQb : Q < 2 ^ 32)
    (n : Nat) : ∀ (q r : W64), u = q.toNat * yn1.toNat + r.toNat → Q ≤ q.toNat →
      q.toNat ≤ 2 ^ 32 + 1 → r.toNat < 2 ^ 32 →
      (q.toNat = 2 ^ 32 + 1 → r.toNat + yn1.toNat < 2 ^ 32) →
      2 ^ 32 ≤ r.toNat + n * yn1.toNat →
      ∃ q' r' : W64, (dmwLoop cfg yn1 yn0 un n q r : Res ε _) = .ok (q', r') ∧
        q'.toNat = Q := by
  induction n with
  | zero => intro q r _ _ _ h1 _ h2; omega
  | succ n ih =>
    intro q r hu hq hqb hr hq1 hn
    have hypos : 0 < yn1.toNat * 2 ^ 32 + yn0.toNat := by omega
    -- the body after the test fired
    have body : Q < q.toNat →
        ∃ q' r' : W64, ((do
          let q ← UInt.sub cfg q 1
          let rhat ← UInt.add cfg r yn1
          if 2 ^ 32 ≤ rhat.toNat then (.ok (q, rhat) : Res ε (W64 × W64))
          else dmwLoop cfg yn1 yn0 un n q rhat) : Res ε (W64 × W64)) = .ok (q', r') ∧
          q'.toNat = Q := by
      intro hlt
      obtain ⟨q2, hq2, eq2⟩ := UInt.sub_ok (ε := ε) cfg q 1 (by
        rw [show BitVec.toNat (1 : W64) = 1 from rfl]; omega)
      rw [show BitVec.toNat (1 : W64) = 1 from rfl] at eq2
      obtain ⟨r2, hr2, er2⟩ := UInt.add_ok (ε := ε) cfg r yn1 (by omega)
      simp only [hq2, hr2, ok_bind]
      have hu2 : u = q2.toNat * yn1.toNat + r2.toNat := by
        obtain ⟨k, hk⟩ : ∃ k, q.toNat = k + 1 := ⟨q.toNat - 1, by omega⟩
        rw [eq2, er2, hu, hk, Nat.add_sub_cancel]; ring
      by_cases hb : 2 ^ 32 ≤ r2.toNat
      · rw [if_pos hb]
        refine ⟨q2, r2, rfl, ?_⟩
        apply le_antisymm
        · rw [hQ, hu2]
          apply trial_ok hypos
          have : q2.toNat ≤ 2 ^ 32 := by
            by_contra hc
            have : q.toNat = 2 ^ 32 + 1 := by omega
            have := hq1 this
            omega
          calc q2.toNat * yn0.toNat ≤ 2 ^ 32 * r2.toNat := Nat.mul_le_mul this (by omega)
            _ ≤ _ := by omega
        · omega
      · rw [if_neg hb]
        apply ih q2 r2 hu2 (by omega) (by omega) (by omega) (by omega)
        rw [er2]
        have : (n + 1) * yn1.toNat = n * yn1.toNat + yn1.toNat := by ring
        omega
    rw [dmwLoop]
    by_cases h32 : 2 ^ 32 ≤ q.toNat
    · simp only [h32, decide_true, if_true, ok_bind]
      exact body (by omega)
    · simp only [h32, decide_false]
      obtain ⟨l, hl, el⟩ := UInt.mul_ok (ε := ε) cfg q yn0 (by
        calc q.toNat * yn0.toNat < 2 ^ 32 * 2 ^ 32 := Nat.mul_lt_mul'' (by omega) hy0
          _ = 2 ^ 64 := by norm_num)
      have e32 : (BitVec.ofNat 64 (2 ^ 32)).toNat = 2 ^ 32 := rfl
      obtain ⟨r1, hr1, er1⟩ := UInt.mul_ok (ε := ε) cfg (BitVec.ofNat 64 (2 ^ 32)) r (by
        rw [e32]; omega)
      rw [e32] at er1
      obtain ⟨r2, hr2, er2⟩ := UInt.add_ok (ε := ε) cfg r1 un (by omega)
      simp only [hl, hr1, hr2, ok_bind, Bool.false_eq_true, if_false]
      by_cases ht : r2.toNat < l.toNat
      · simp only [ht, decide_true, if_true]
        apply body
        rw [hQ, hu]
        apply trial_too_big
        omega
      · simp only [ht, decide_false, Bool.false_eq_true, if_false]
        refine ⟨q, r, rfl, ?_⟩
        apply le_antisymm _ hq
        rw [hQ]
        conv_rhs => rw [hu]
        apply trial_ok hypos
        omega

/-- One 3-by-2 half-word division step: the whole loop started from `u / y1`. -/
theorem dmwLoop_full (cfg : Cfg) (yn1 yn0 un : W64) (hy1 : 2 ^ 31 ≤ yn1.toNat)
    (hy1' : yn1.toNat < 2 ^ 32) (hy0 : yn0.toNat < 2 ^ 32) (hun : un.toNat < 2 ^ 32) (u : Nat)
    (hu : u < yn1.toNat * 2 ^ 32 + yn0.toNat) (q r : W64) (hq : q.toNat = u / yn1.toNat)
    (hr : r.toNat = u % yn1.toNat) {n : Nat} (hn : 2 ≤ n) :
    ∃ q' r' : W64, (dmwLoop cfg yn1 yn0 un n q r : Res ε _) = .ok (q', r') ∧
      q'.toNat = (u * 2 ^ 32 + un.toNat) / (yn1.toNat * 2 ^ 32 + yn0.toNat) ∧
      q'.toNat < 2 ^ 32 := by
  have hypos : 0 < yn1.toNat * 2 ^ 32 + yn0.toNat := by omega
  set Q := (u * 2 ^ 32 + un.toNat) / (yn1.toNat * 2 ^ 32 + yn0.toNat) with hQ
  have hQb : Q < 2 ^ 32 := by
    rw [hQ, Nat.div_lt_iff_lt_mul hypos]
    nlinarith
  have hu' : u = q.toNat * yn1.toNat + r.toNat := by
    rw [hq, hr, Nat.mul_comm]; exact (Nat.div_add_mod _ _).symm
  have hry : r.toNat < yn1.toNat := by rw [hr]; exact Nat.mod_lt _ (by omega)
  have hQq : Q ≤ q.toNat := by
    rw [hq, Nat.le_div_iff_mul_le (by omega)]
    have h1 : Q * (yn1.toNat * 2 ^ 32 + yn0.toNat) ≤ u * 2 ^ 32 + un.toNat := by
      rw [hQ]; exact Nat.div_mul_le_self _ _
    by_contra hc
    have h2 : u + 1 ≤ Q * yn1.toNat := by omega
    have h3 : (u + 1) * 2 ^ 32 ≤ Q * yn1.toNat * 2 ^ 32 := Nat.mul_le_mul_right _ h2
    have h4 : Q * (yn1.toNat * 2 ^ 32 + yn0.toNat) = Q * yn1.toNat * 2 ^ 32 + Q * yn0.toNat := by
      ring
    have h5 : 0 ≤ Q * yn0.toNat := Nat.zero_le _
    omega
  have hbig : ∀ k, q.toNat = 2 ^ 32 + k → k * yn1.toNat + r.toNat < yn0.toNat := by
    intro k hk
    rw [hk] at hu'
    have : (2 ^ 32 + k) * yn1.toNat = yn1.toNat * 2 ^ 32 + k * yn1.toNat := by ring
    omega
  have hqb : q.toNat ≤ 2 ^ 32 + 1 := by
    by_contra hc
    obtain ⟨k, hk⟩ : ∃ k, q.toNat = 2 ^ 32 + (k + 2) := ⟨q.toNat - 2 ^ 32 - 2, by omega⟩
    have := hbig _ hk
    have : (k + 2) * yn1.toNat = k * yn1.toNat + 2 * yn1.toNat := by ring
    omega
  obtain ⟨q', r', h1, h2⟩ := dmwLoop_spec (ε := ε) cfg yn1 yn0 un hy1 hy1' hy0 hun Q u hQ hQb n
    q r hu' hQq hqb (by omega) (by
      intro hk
      have := hbig 1 (by omega)
      omega) (by
      have : 2 * yn1.toNat ≤ n * yn1.toNat := Nat.mul_le_mul_right _ hn
      omega)
  exact ⟨q', r', h1, h2, by omega⟩

theorem two32_toNat : (BitVec.ofNat 64 (2 ^ 32)).toNat = 2 ^ 32 := by decide

theorem wrap_sub_arith (a b c k x : Nat) (hx : x < 2 ^ 64)
    (h : a * 2 ^ 32 + b = k + x) (hc : c = k % 2 ^ 64) :
    (2 ^ 64 - c + (a * 2 ^ 32 % 2 ^ 64 + b) % 2 ^ 64) % 2 ^ 64 = x := by
  omega

/-- The wrapping expression `u·2^32 + d - q·y` is the remainder. -/
theorem wrap_sub_eq (u d y q : W64) (hy : 0 < y.toNat)
    (hq : q.toNat = (u.toNat * 2 ^ 32 + d.toNat) / y.toNat) :
    (u * BitVec.ofNat 64 (2 ^ 32) + d - q * y).toNat
      = (u.toNat * 2 ^ 32 + d.toNat) % y.toNat := by
  rw [BitVec.toNat_sub, BitVec.toNat_add, BitVec.toNat_mul, BitVec.toNat_mul, two32_toNat]
  exact wrap_sub_arith _ _ _ (q.toNat * y.toNat) _ (lt_trans (Nat.mod_lt _ hy) y.isLt)
    (by rw [hq]; exact (Nat.div_add_mod' _ _).symm) rfl

theorem wrap_mod_eq (u q y : W64) (hq : q.toNat = u.toNat / y.toNat) :
    (u - q * y).toNat = u.toNat % y.toNat := by
  have h1 : q.toNat * y.toNat ≤ u.toNat := by rw [hq]; exact Nat.div_mul_le_self _ _
  have h2 := u.isLt
  have h3 := Nat.div_add_mod' u.toNat y.toNat
  rw [← hq] at h3
  rw [BitVec.toNat_sub, BitVec.toNat_mul, Nat.mod_eq_of_lt (lt_of_le_of_lt h1 h2)]
  omega

/-- Division of the normalised dividend `un32·2^64 + un10` by the normalised divisor `yy`:
the two digit steps of `div_mod_word`. -/
theorem dmw_core (cfg : Cfg) (un32 un10 yy : W64) (hy : 2 ^ 63 ≤ yy.toNat)
    (hu : un32.toNat < yy.toNat) :
    ∃ q1 t rh q1' r1' q0 q0' r0' qa qb : W64,
      (UInt.div un32 (split yy).1 : Res ε _) = .ok q1 ∧
      (UInt.mul cfg q1 (split yy).1 : Res ε _) = .ok t ∧
      (UInt.sub cfg un32 t : Res ε _) = .ok rh ∧
      (dmwLoop cfg (split yy).1 (split yy).2 (split un10).1 4 q1 rh : Res ε _) = .ok (q1', r1') ∧
      (UInt.div (un32 * BitVec.ofNat 64 (2 ^ 32) + (split un10).1 - q1' * yy) (split yy).1
        : Res ε _) = .ok q0 ∧
      (dmwLoop cfg (split yy).1 (split yy).2 (split un10).2 4 q0
        (un32 * BitVec.ofNat 64 (2 ^ 32) + (split un10).1 - q1' * yy - q0 * (split yy).1)
          : Res ε _) = .ok (q0', r0') ∧
      (UInt.mul cfg q1' (BitVec.ofNat 64 (2 ^ 32)) : Res ε _) = .ok qa ∧
      (UInt.add cfg qa q0' : Res ε _) = .ok qb ∧
      un32.toNat * 2 ^ 64 + un10.toNat = qb.toNat * yy.toNat +
        ((un32 * BitVec.ofNat 64 (2 ^ 32) + (split un10).1 - q1' * yy) * BitVec.ofNat 64 (2 ^ 32)
          + (split un10).2 - yy * q0').toNat ∧
      ((un32 * BitVec.ofNat 64 (2 ^ 32) + (split un10).1 - q1' * yy) * BitVec.ofNat 64 (2 ^ 32)
          + (split un10).2 - yy * q0').toNat < yy.toNat := by
  obtain ⟨ey, hyn0⟩ := split_spec yy
  obtain ⟨eu, hun0⟩ := split_spec un10
  have hun1 : (split un10).1.toNat < 2 ^ 32 := by have := un10.isLt; omega
  generalize (split yy).1 = yn1 at *
  generalize (split yy).2 = yn0 at *
  generalize (split un10).1 = un1 at *
  generalize (split un10).2 = un0 at *
  have hyl := yy.isLt
  have hyn1 : 2 ^ 31 ≤ yn1.toNat := by omega
  have hyn1' : yn1.toNat < 2 ^ 32 := by omega
  have hypos : 0 < yy.toNat := by omega
  have hyn1pos : yn1.toNat ≠ 0 := by omega
  clear hy hyl
  obtain ⟨q1, hq1, eq1⟩ := UInt.div_ok (ε := ε) un32 yn1 hyn1pos
  have hq1y : q1.toNat * yn1.toNat ≤ un32.toNat := by rw [eq1]; exact Nat.div_mul_le_self _ _
  obtain ⟨t, ht, et⟩ := UInt.mul_ok (ε := ε) cfg q1 yn1 (lt_of_le_of_lt hq1y un32.isLt)
  obtain ⟨rh, hrh, erh⟩ := UInt.sub_ok (ε := ε) cfg un32 t (by rw [et]; exact hq1y)
  have erh' : rh.toNat = un32.toNat % yn1.toNat := by
    rw [erh, et, eq1, Nat.mod_eq_sub_div_mul]
  obtain ⟨q1', r1', hloop1, eQ1, hQ1⟩ := dmwLoop_full (ε := ε) cfg yn1 yn0 un1 hyn1 hyn1' hyn0 hun1
    un32.toNat (by rw [ey]; exact hu) q1 rh eq1 erh' (n := 4) (by norm_num)
  rw [ey] at eQ1
  have eun21 := wrap_sub_eq un32 un1 yy q1' hypos eQ1
  have hd1 := Nat.div_add_mod' (un32.toNat * 2 ^ 32 + un1.toNat) yy.toNat
  rw [← eQ1, ← eun21] at hd1
  have hm1 : (un32 * BitVec.ofNat 64 (2 ^ 32) + un1 - q1' * yy).toNat < yy.toNat := by
    rw [eun21]; exact Nat.mod_lt _ hypos
  obtain ⟨un21, hun21⟩ : ∃ z, z = un32 * BitVec.ofNat 64 (2 ^ 32) + un1 - q1' * yy := ⟨_, rfl⟩
  rw [← hun21] at eun21 hd1 hm1
  obtain ⟨q0, hq0, eq0⟩ := UInt.div_ok (ε := ε) un21 yn1 hyn1pos
  have erh2 := wrap_mod_eq un21 q0 yn1 eq0
  obtain ⟨q0', r0', hloop0, eQ0, hQ0⟩ := dmwLoop_full (ε := ε) cfg yn1 yn0 un0 hyn1 hyn1' hyn0 hun0
    un21.toNat (by rw [ey]; exact hm1) q0 _ eq0 erh2 (n := 4) (by norm_num)
  rw [ey] at eQ0
  have erem := wrap_sub_eq un21 un0 yy q0' hypos eQ0
  rw [BitVec.mul_comm q0' yy] at erem
  have hd0 := Nat.div_add_mod' (un21.toNat * 2 ^ 32 + un0.toNat) yy.toNat
  rw [← eQ0, ← erem] at hd0
  have hm0 : (un21 * BitVec.ofNat 64 (2 ^ 32) + un0 - yy * q0').toNat < yy.toNat := by
    rw [erem]; exact Nat.mod_lt _ hypos
  obtain ⟨qa, hqa, eqa⟩ := UInt.mul_ok (ε := ε) cfg q1' (BitVec.ofNat 64 (2 ^ 32)) (by
    rw [two32_toNat]; omega)
  rw [two32_toNat] at eqa
  obtain ⟨qb, hqb, eqb⟩ := UInt.add_ok (ε := ε) cfg qa q0' (by omega)
  refine ⟨q1, t, rh, q1', r1', q0, q0', r0', qa, qb, hq1, ht, hrh, hloop1, ?_⟩
  rw [← hun21]
  refine ⟨hq0, hloop0, hqa, hqb, ?_, hm0⟩
  rw [eqb, eqa]
  have h1 : un32.toNat * 2 ^ 64 + un10.toNat
      = (un32.toNat * 2 ^ 32 + un1.toNat) * 2 ^ 32 + un0.toNat := by
    rw [← eu]; ring
  rw [h1, ← hd1]
  have h2 : (q1'.toNat * yy.toNat + un21.toNat) * 2 ^ 32 + un0.toNat
      = q1'.toNat * 2 ^ 32 * yy.toNat + (un21.toNat * 2 ^ 32 + un0.toNat) := by ring
  rw [h2, ← hd0]; ring

theorem or_add_of_lt (x s l : Nat) (h : l < 2 ^ s) : (x * 2 ^ s) ||| l = x * 2 ^ s + l := by
  rw [← Nat.shiftLeft_eq, Nat.shiftLeft_add_eq_or_of_lt h]

/-- `div_mod_word` divides `hi·2^64 + lo` by `y` exactly whenever `hi < y`. -/
theorem divModWord_spec (cfg : Cfg) (hi lo y : W64) (h : hi.toNat < y.toNat) :
    ∃ q r : W64, (divModWord cfg hi lo y : Res ε _) = .ok (q, r) ∧
      q.toNat = (hi.toNat * 2 ^ 64 + lo.toNat) / y.toNat ∧
      r.toNat = (hi.toNat * 2 ^ 64 + lo.toNat) % y.toNat := by
  have hlo := lo.isLt
  obtain ⟨hs, hs1, hs2⟩ := leadingZeros_spec y (by omega)
  unfold divModWord
  simp only [h, decide_true, debugAssert, Bool.not_true, Bool.and_false, Bool.false_eq_true,
    if_false, ok_bind]
  set s := UInt.leadingZeros y with hsdef
  clear_value s
  -- normalised divisor
  have hps : 2 ^ s * 2 ^ (64 - s) = 2 ^ 64 := by rw [← pow_add]; congr 1; omega
  have hps1 : 2 ^ (63 - s) * 2 ^ s = 2 ^ 63 := by rw [← pow_add]; congr 1; omega
  have hppos : 0 < 2 ^ s := Nat.pow_pos (by norm_num)
  have hY : y.toNat * 2 ^ s < 2 ^ 64 := by
    calc y.toNat * 2 ^ s < 2 ^ (64 - s) * 2 ^ s := Nat.mul_lt_mul_of_pos_right hs2 hppos
      _ = 2 ^ 64 := by rw [Nat.mul_comm, hps]
  have hY' : 2 ^ 63 ≤ y.toNat * 2 ^ s := by
    calc 2 ^ 63 = 2 ^ (63 - s) * 2 ^ s := hps1.symm
      _ ≤ _ := Nat.mul_le_mul_right _ hs1
  obtain ⟨yy, hyy, eyy⟩ := UInt.shl_ok (ε := ε) cfg y (by omega : s < 64)
  rw [Nat.mod_eq_of_lt hY] at eyy
  obtain ⟨hh, hhh, ehh⟩ := UInt.shl_ok (ε := ε) cfg hi (by omega : s < 64)
  have hhl : hi.toNat * 2 ^ s < y.toNat * 2 ^ s := Nat.mul_lt_mul_of_pos_right h hppos
  rw [Nat.mod_eq_of_lt (by omega)] at ehh
  obtain ⟨un10, hun10, eun10⟩ := UInt.shl_ok (ε := ε) cfg lo (by omega : s < 64)
  simp only [hyy, hhh, hun10, ok_bind]
  -- upper part of the shifted dividend
  set l : W64 := if 64 - s < 64 then lo >>> (64 - s) else 0 with hl
  have el : l.toNat = lo.toNat / 2 ^ (64 - s) := by
    rw [hl]
    by_cases h0 : 64 - s < 64
    · rw [if_pos h0, BitVec.toNat_ushiftRight, Nat.shiftRight_eq_div_pow]
    · have : s = 0 := by omega
      subst this
      rw [if_neg h0]
      simp only [Nat.sub_zero]
      rw [Nat.div_eq_of_lt hlo]; rfl
  have hlo2 : lo.toNat * 2 ^ s = l.toNat * 2 ^ 64 + un10.toNat := by
    rw [el, eun10]
    have h1 : lo.toNat * 2 ^ s % 2 ^ 64 = (lo.toNat % 2 ^ (64 - s)) * 2 ^ s := by
      rw [← hps, Nat.mul_comm (2 ^ s) (2 ^ (64 - s)), Nat.mul_mod_mul_right]
    rw [h1]
    conv_lhs => rw [← Nat.div_add_mod lo.toNat (2 ^ (64 - s))]
    rw [← hps]; ring
  have hlb : l.toNat < 2 ^ s := by
    rw [el, Nat.div_lt_iff_lt_mul (Nat.pow_pos (by norm_num)), hps]; exact hlo
  set un32 := hh ||| l with hun32
  have eun32 : un32.toNat = hi.toNat * 2 ^ s + l.toNat := by
    rw [hun32, BitVec.toNat_or, ehh, or_add_of_lt _ _ _ hlb]
  have hun32lt : un32.toNat < yy.toNat := by
    rw [eun32, eyy]
    calc hi.toNat * 2 ^ s + l.toNat < hi.toNat * 2 ^ s + 2 ^ s := by omega
      _ = (hi.toNat + 1) * 2 ^ s := by ring
      _ ≤ _ := Nat.mul_le_mul_right _ h
  have hN : (hi.toNat * 2 ^ 64 + lo.toNat) * 2 ^ s = un32.toNat * 2 ^ 64 + un10.toNat := by
    rw [eun32, Nat.add_mul, hlo2]; ring
  clear_value l un32
  obtain ⟨q1, t, rh, q1', r1', q0, q0', r0', qa, qb, hq1, ht, hrh, hloop1, hq0, hloop0, hqa, hqb,
    hdiv, hrem⟩ := dmw_core (ε := ε) cfg un32 un10 yy (by omega) hun32lt
  simp only [hq1, ht, hrh, hloop1, hq0, hloop0, hqa, hqb, ok_bind]
  generalize (un32 * BitVec.ofNat 64 (2 ^ 32) + (split un10).1 - q1' * yy)
    * BitVec.ofNat 64 (2 ^ 32) + (split un10).2 - yy * q0' = rem at *
  obtain ⟨rr, hrr, err⟩ := UInt.shr_ok (ε := ε) cfg rem (by omega : s < 64)
  simp only [hrr, ok_bind]
  refine ⟨qb, rr, rfl, ?_⟩
  have hfinal : (hi.toNat * 2 ^ 64 + lo.toNat) * 2 ^ s
      = qb.toNat * (y.toNat * 2 ^ s) + rem.toNat := by
    rw [hN, ← eyy, hdiv]
  have hremlt : rem.toNat < y.toNat * 2 ^ s := by rw [← eyy]; exact hrem
  set N := hi.toNat * 2 ^ 64 + lo.toNat
  have hremdvd : rem.toNat = (rem.toNat / 2 ^ s) * 2 ^ s := by
    have hdvd : 2 ^ s ∣ rem.toNat := by
      have h1 : 2 ^ s ∣ N * 2 ^ s := Nat.dvd_mul_left _ _
      have h2 : 2 ^ s ∣ qb.toNat * (y.toNat * 2 ^ s) := ⟨qb.toNat * y.toNat, by ring⟩
      rw [hfinal] at h1
      exact (Nat.dvd_add_right h2).1 h1
    exact (Nat.div_mul_cancel hdvd).symm
  have hNq : N = y.toNat * qb.toNat + rem.toNat / 2 ^ s := by
    apply Nat.eq_of_mul_eq_mul_right hppos
    rw [hfinal, Nat.add_mul, ← hremdvd]; ring
  have hrl : rem.toNat / 2 ^ s < y.toNat := by
    rw [Nat.div_lt_iff_lt_mul hppos]; exact hremlt
  constructor
  · rw [hNq, Nat.mul_add_div (by omega), Nat.div_eq_of_lt hrl, Nat.add_zero]
  · rw [err, hNq, Nat.mul_add_mod, Nat.mod_eq_of_lt hrl]

/-- `div_mod_small`: division by one word. -/
theorem divModSmall_spec (cfg : Cfg) (x : U256) (y : W64) (hy : y.toNat ≠ 0) :
    ∃ q r, (divModSmall cfg x y : Res ε _) = .ok (q, r) ∧
      q.toNat = x.toNat / y.toNat ∧ r.toNat = x.toNat % y.toNat := by
  have z0 : BitVec.toNat (0 : W64) = 0 := rfl
  obtain ⟨q3, r3, h3, e3, f3⟩ := divModWord_spec (ε := ε) cfg 0 x.w3 y (by rw [z0]; omega)
  have l3 : r3.toNat < y.toNat := by rw [f3]; exact Nat.mod_lt _ (by omega)
  obtain ⟨q2, r2, h2, e2, f2⟩ := divModWord_spec (ε := ε) cfg r3 x.w2 y l3
  have l2 : r2.toNat < y.toNat := by rw [f2]; exact Nat.mod_lt _ (by omega)
  obtain ⟨q1, r1, h1, e1, f1⟩ := divModWord_spec (ε := ε) cfg r2 x.w1 y l2
  have l1 : r1.toNat < y.toNat := by rw [f1]; exact Nat.mod_lt _ (by omega)
  obtain ⟨q0, r0, h0, e0, f0⟩ := divModWord_spec (ε := ε) cfg r1 x.w0 y l1
  have l0 : r0.toNat < y.toNat := by rw [f0]; exact Nat.mod_lt _ (by omega)
  refine ⟨⟨q0, q1, q2, q3⟩, ⟨r0, 0, 0, 0⟩, by simp only [divModSmall, h3, h2, h1, h0, ok_bind], ?_⟩
  have d3 := Nat.div_add_mod' (BitVec.toNat (0 : W64) * 2 ^ 64 + x.w3.toNat) y.toNat
  have d2 := Nat.div_add_mod' (r3.toNat * 2 ^ 64 + x.w2.toNat) y.toNat
  have d1 := Nat.div_add_mod' (r2.toNat * 2 ^ 64 + x.w1.toNat) y.toNat
  have d0 := Nat.div_add_mod' (r1.toNat * 2 ^ 64 + x.w0.toNat) y.toNat
  rw [← e3, ← f3, z0] at d3
  rw [← e2, ← f2] at d2
  rw [← e1, ← f1] at d1
  rw [← e0, ← f0] at d0
  have key : x.toNat = y.toNat * U256.toNat ⟨q0, q1, q2, q3⟩ + r0.toNat := by
    simp only [toNat]
    have : y.toNat * (q0.toNat + q1.toNat * 2 ^ 64 + q2.toNat * 2 ^ 128 + q3.toNat * 2 ^ 192)
        = q0.toNat * y.toNat + q1.toNat * y.toNat * 2 ^ 64 + q2.toNat * y.toNat * 2 ^ 128
          + q3.toNat * y.toNat * 2 ^ 192 := by ring
    rw [this]
    omega
  have er : U256.toNat ⟨r0, 0, 0, 0⟩ = r0.toNat := by simp [toNat]
  constructor
  · rw [key, Nat.mul_add_div (by omega), Nat.div_eq_of_lt l0, Nat.add_zero]
  · rw [er, key, Nat.mul_add_mod, Nat.mod_eq_of_lt l0]

end U256

end Fixnum
