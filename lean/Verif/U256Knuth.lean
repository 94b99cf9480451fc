import Verif.U256Shift

/-! # Helper lemmas: correctness of `div_mod_knuth` and `div_mod` -/

namespace Fixnum

open Res

variable {ε : Type}

namespace U256

/-! ## Slices -/

theorem binopCarry_sub (a b : W64) (c : Bool) :
    (binopCarry a b c UInt.overflowingSub).1.toNat + b.toNat + c.toNat
      = a.toNat + 2 ^ 64 * (binopCarry a b c UInt.overflowingSub).2.toNat := by
  have ha := a.isLt; have hb := b.isLt
  unfold binopCarry
  have e1 := Fixnum.overflowingAdd_spec b (b2w c)
  have e2 := Fixnum.overflowingSub_spec a (UInt.overflowingAdd b (b2w c)).1
  rw [b2w_toNat] at e1
  have hc := bool_toNat_le c
  have l1 := (UInt.overflowingAdd b (b2w c)).1.isLt
  have l2 := (UInt.overflowingSub a (UInt.overflowingAdd b (b2w c)).1).1.isLt
  dsimp only
  generalize (UInt.overflowingSub a (UInt.overflowingAdd b (b2w c)).1) = r2 at *
  generalize (UInt.overflowingAdd b (b2w c)) = r1 at *
  obtain ⟨x, o1⟩ := r1
  obtain ⟨y, o2⟩ := r2
  cases o1 <;> cases o2 <;> simp only [Bool.or_false, Bool.or_true, Bool.toNat_true,
    Bool.toNat_false] at * <;> omega

theorem binopCarry_add (a b : W64) (c : Bool) :
    (binopCarry a b c UInt.overflowingAdd).1.toNat
        + 2 ^ 64 * (binopCarry a b c UInt.overflowingAdd).2.toNat
      = a.toNat + b.toNat + c.toNat := by
  have ha := a.isLt; have hb := b.isLt
  unfold binopCarry
  have e1 := Fixnum.overflowingAdd_spec b (b2w c)
  have e2 := Fixnum.overflowingAdd_spec a (UInt.overflowingAdd b (b2w c)).1
  rw [b2w_toNat] at e1
  have hc := bool_toNat_le c
  have l1 := (UInt.overflowingAdd b (b2w c)).1.isLt
  have l2 := (UInt.overflowingAdd a (UInt.overflowingAdd b (b2w c)).1).1.isLt
  dsimp only
  generalize (UInt.overflowingAdd a (UInt.overflowingAdd b (b2w c)).1) = r2 at *
  generalize (UInt.overflowingAdd b (b2w c)) = r1 at *
  obtain ⟨x, o1⟩ := r1
  obtain ⟨y, o2⟩ := r2
  cases o1 <;> cases o2 <;> simp only [Bool.or_false, Bool.or_true, Bool.toNat_true,
    Bool.toNat_false] at * <;> omega

theorem binopSlice_length (fn : W64 → W64 → W64 × Bool) (a b : List W64) (c : Bool) :
    (binopSlice fn a b c).1.length = a.length := by
  induction a generalizing b c with
  | nil => cases b <;> rfl
  | cons x xs ih =>
    cases b with
    | nil => rfl
    | cons y ys => simp [binopSlice, ih]

theorem binopSlice_drop (fn : W64 → W64 → W64 × Bool) (a b : List W64) (c : Bool) :
    (binopSlice fn a b c).1.drop b.length = a.drop b.length := by
  induction a generalizing b c with
  | nil => cases b <;> rfl
  | cons x xs ih =>
    cases b with
    | nil => rfl
    | cons y ys => simp [binopSlice, ih]

theorem slice_sub_arith {B X r b c a c1 R A Bs c2 : Nat} (e : r + b + c = a + B * c1)
    (ih : R + Bs + c1 = A + X * c2) :
    r + B * R + (b + B * Bs) + c = a + B * A + B * X * c2 := by
  have : B * R + B * Bs + B * c1 = B * A + B * (X * c2) := by
    rw [← Nat.mul_add, ← Nat.mul_add, ih]; ring
  rw [Nat.mul_assoc]
  omega

theorem slice_add_arith {B X r b c a c1 R A Bs c2 : Nat} (e : r + B * c1 = a + b + c)
    (ih : R + X * c2 = A + Bs + c1) :
    r + B * R + B * X * c2 = a + B * A + (b + B * Bs) + c := by
  have : B * R + B * (X * c2) = B * A + B * Bs + B * c1 := by
    rw [← Nat.mul_add, ih]; ring
  rw [Nat.mul_assoc]
  omega

theorem binopSlice_sub (a b : List W64) (c : Bool) (h : b.length ≤ a.length) :
    valL (binopSlice UInt.overflowingSub a b c).1 + valL b + c.toNat
      = valL a + 2 ^ (64 * b.length) * (binopSlice UInt.overflowingSub a b c).2.toNat := by
  induction a generalizing b c with
  | nil =>
    cases b with
    | nil => simp [binopSlice, valL]
    | cons y ys => simp at h
  | cons x xs ih =>
    cases b with
    | nil => simp [binopSlice, valL]
    | cons y ys =>
      have ih := ih ys (binopCarry x y c UInt.overflowingSub).2 (by simpa using h)
      have e := binopCarry_sub x y c
      simp only [binopSlice, valL, List.length_cons]
      rw [show 64 * (ys.length + 1) = 64 + 64 * ys.length by ring, pow_add]
      exact slice_sub_arith e ih

theorem binopSlice_add (a b : List W64) (c : Bool) (h : b.length ≤ a.length) :
    valL (binopSlice UInt.overflowingAdd a b c).1
        + 2 ^ (64 * b.length) * (binopSlice UInt.overflowingAdd a b c).2.toNat
      = valL a + valL b + c.toNat := by
  induction a generalizing b c with
  | nil =>
    cases b with
    | nil => simp [binopSlice, valL]
    | cons y ys => simp at h
  | cons x xs ih =>
    cases b with
    | nil => simp [binopSlice, valL]
    | cons y ys =>
      have ih := ih ys (binopCarry x y c UInt.overflowingAdd).2 (by simpa using h)
      have e := binopCarry_add x y c
      simp only [binopSlice, valL, List.length_cons]
      rw [show 64 * (ys.length + 1) = 64 + 64 * ys.length by ring, pow_add]
      exact slice_add_arith e ih

/-! ## Product by one word -/

theorem mulU64_spec (cfg : Cfg) (a b c : W64) :
    ∃ lo hi : W64, (mulU64 cfg a b c : Res ε _) = .ok (lo, hi) ∧
      lo.toNat + 2 ^ 64 * hi.toNat = a.toNat * b.toNat + c.toNat := by
  obtain ⟨p, h1, e1⟩ := mul64_ok (ε := ε) cfg a b
  have ha := a.isLt; have hb := b.isLt; have hc := c.isLt
  have ec : (c.setWidth 128).toNat = c.toNat := by
    rw [BitVec.toNat_setWidth]; exact Nat.mod_eq_of_lt (by omega)
  obtain ⟨s, h2, e2⟩ := UInt.add_ok (ε := ε) cfg p (c.setWidth 128) (by
    rw [e1, ec]
    calc a.toNat * b.toNat + c.toNat ≤ (2 ^ 64 - 1) * (2 ^ 64 - 1) + (2 ^ 64 - 1) := by
          exact Nat.add_le_add (Nat.mul_le_mul (by omega) (by omega)) (by omega)
      _ < 2 ^ 128 := by norm_num)
  refine ⟨(splitU128 s).2, (splitU128 s).1, ?_, ?_⟩
  · simp only [mulU64, h1, h2, ok_bind]
  · have := splitU128_spec s
    rw [e2, e1, ec] at this
    rw [← this]; ring

theorem fullMulU64_arith {B m0 m1 m2 m3 b r0 r1 r2 r3 c0 c1 c2 c3 : Nat}
    (e0 : r0 + B * c0 = m0 * b + 0) (e1 : r1 + B * c1 = m1 * b + c0)
    (e2 : r2 + B * c2 = m2 * b + c1) (e3 : r3 + B * c3 = m3 * b + c2) :
    r0 + B * (r1 + B * (r2 + B * (r3 + B * c3)))
      = (m0 + B * (m1 + B * (m2 + B * m3))) * b := by
  zify at *
  linear_combination e0 + B * e1 + B ^ 2 * e2 + B ^ 3 * e3

theorem fullMulU64_spec (cfg : Cfg) (x : U256) (b : W64) :
    ∃ l, (fullMulU64 cfg x b : Res ε _) = .ok l ∧ l.length = 5 ∧
      valL l = x.toNat * b.toNat := by
  obtain ⟨r0, c0, h0, e0⟩ := mulU64_spec (ε := ε) cfg x.w0 b 0
  obtain ⟨r1, c1, h1, e1⟩ := mulU64_spec (ε := ε) cfg x.w1 b c0
  obtain ⟨r2, c2, h2, e2⟩ := mulU64_spec (ε := ε) cfg x.w2 b c1
  obtain ⟨r3, c3, h3, e3⟩ := mulU64_spec (ε := ε) cfg x.w3 b c2
  rw [show BitVec.toNat (0 : W64) = 0 from rfl] at e0
  refine ⟨[r0, r1, r2, r3, c3], ?_, rfl, ?_⟩
  · simp only [fullMulU64, overflowingMulU64, h0, h1, h2, h3, ok_bind, words, List.cons_append,
      List.nil_append]
  · rw [← valL_words]
    simp only [valL, words, Nat.mul_zero, Nat.add_zero]
    exact fullMulU64_arith e0 e1 e2 e3

/-! ## The quotient digit -/

theorem lex_le {B hi lo r u : Nat} (hlo : lo < B) (hu : u < B) :
    (hi < r ∨ (hi = r ∧ lo ≤ u)) ↔ hi * B + lo ≤ B * r + u := by
  constructor
  · rintro (h | ⟨rfl, h⟩)
    · have : (hi + 1) * B ≤ r * B := Nat.mul_le_mul_right _ h
      rw [Nat.add_mul] at this
      rw [Nat.mul_comm B r]; omega
    · rw [Nat.mul_comm B hi]; omega
  · intro h
    rcases lt_trichotomy hi r with h1 | h1 | h1
    · exact Or.inl h1
    · subst h1; rw [Nat.mul_comm B hi] at h; exact Or.inr ⟨rfl, by omega⟩
    · exfalso
      have : (r + 1) * B ≤ hi * B := Nat.mul_le_mul_right _ h1
      rw [Nat.add_mul] at this
      rw [Nat.mul_comm B r] at h; omega

theorem qhatLoop_spec (cfg : Cfg) (vn1 vn2 u2 : W64) (hv : 2 ^ 63 ≤ vn1.toNat) (Q u : Nat)
    (hQ : Q = (u * 2 ^ 64 + u2.toNat) / (vn1.toNat * 2 ^ 64 + vn2.toNat)) (n : Nat) :
    ∀ q r : W64, u = q.toNat * vn1.toNat + r.toNat → Q ≤ q.toNat →
      2 ^ 64 ≤ r.toNat + n * vn1.toNat →
      ∃ q' : W64, (qhatLoop cfg vn1 vn2 u2 n q r : Res ε _) = .ok q' ∧ q'.toNat = Q := by
  induction n with
  | zero => intro q r _ _ h; have := r.isLt; omega
  | succ n ih =>
    intro q r hu hq hn
    have hypos : 0 < vn1.toNat * 2 ^ 64 + vn2.toNat := by omega
    obtain ⟨p, hp, ep⟩ := mul64_ok (ε := ε) cfg q vn2
    have hsp := splitU128_spec p
    unfold qhatLoop
    simp only [hp, ok_bind]
    have hcond : ((splitU128 p).1.toNat < r.toNat ∨ ((splitU128 p).1 = r ∧
        (splitU128 p).2.toNat ≤ u2.toNat)) ↔ q.toNat * vn2.toNat ≤ 2 ^ 64 * r.toNat + u2.toNat := by
      rw [← ep, ← hsp, ← lex_le (splitU128 p).2.isLt u2.isLt]
      rw [BitVec.toNat_inj]
    by_cases hc : q.toNat * vn2.toNat ≤ 2 ^ 64 * r.toNat + u2.toNat
    · rw [if_pos (hcond.2 hc)]
      refine ⟨q, rfl, le_antisymm ?_ hq⟩
      rw [hQ, hu]; exact trial_ok hypos hc
    · rw [if_neg (fun h => hc (hcond.1 h))]
      have hlt : Q < q.toNat := by
        rw [hQ, hu]; exact trial_too_big (not_le.1 hc)
      obtain ⟨q1, hq1, eq1⟩ := UInt.sub_ok (ε := ε) cfg q 1 (by
        rw [show BitVec.toNat (1 : W64) = 1 from rfl]; omega)
      rw [show BitVec.toNat (1 : W64) = 1 from rfl] at eq1
      simp only [hq1, ok_bind]
      have hadd := Fixnum.overflowingAdd_spec r vn1
      have hl := (UInt.overflowingAdd r vn1).1.isLt
      generalize UInt.overflowingAdd r vn1 = ro at *
      obtain ⟨r1, o⟩ := ro
      have hu' : u = q1.toNat * vn1.toNat + (r.toNat + vn1.toNat) := by
        rw [hu, eq1]
        obtain ⟨k, hk⟩ : ∃ k, q.toNat = k + 1 := ⟨q.toNat - 1, by omega⟩
        rw [hk, Nat.add_sub_cancel]; ring
      cases o with
      | true =>
        simp only [if_true]
        refine ⟨q1, rfl, le_antisymm ?_ (by omega)⟩
        -- the remainder exceeds one digit, so the test cannot fire any more
        rw [hQ, hu']
        apply trial_ok hypos
        have h1 : 2 ^ 64 ≤ r.toNat + vn1.toNat := by
          simp only [Bool.toNat_true, Nat.mul_one] at hadd; omega
        calc q1.toNat * vn2.toNat ≤ 2 ^ 64 * 2 ^ 64 :=
              Nat.mul_le_mul q1.isLt.le vn2.isLt.le
          _ ≤ 2 ^ 64 * (r.toNat + vn1.toNat) := Nat.mul_le_mul_left _ h1
          _ ≤ _ := Nat.le_add_right _ _
      | false =>
        simp only [Bool.false_eq_true, if_false]
        simp only [Bool.toNat_false, Nat.mul_zero, Nat.add_zero] at hadd
        exact ih q1 r1 (by rw [hu', hadd]) (by omega) (by
          rw [hadd]
          rw [show (n + 1) * vn1.toNat = n * vn1.toNat + vn1.toNat by ring] at hn
          omega)

/-- The trial digit exceeds the true digit by at most one (two-digit test, `B²/2 ≤ V2`). -/
theorem qhat_bound {B X U V U3 V2 u0 v0 : Nat} (hB : 4 ≤ B) (hU : U = U3 * X + u0)
    (hu0 : u0 < X) (hV : V = V2 * X + v0) (hv0 : v0 < X) (hV2 : B * B ≤ 2 * V2)
    (hq : U3 / V2 < B) :
    U / V ≤ U3 / V2 ∧ U3 / V2 ≤ U / V + 1 := by
  have hX : 0 < X := by omega
  have hV2pos : 0 < V2 := by
    rcases Nat.eq_zero_or_pos V2 with h | h
    · subst h; have := Nat.mul_pos (show 0 < B by omega) (show 0 < B by omega); omega
    · exact h
  have hVpos : 0 < V := by
    have := Nat.mul_pos hV2pos hX; omega
  set q := U / V with hqd
  set p := U3 / V2 with hpd
  have h1 : q * V ≤ U := Nat.div_mul_le_self _ _
  have h2 : U < (q + 1) * V := by
    rw [Nat.mul_comm]; exact Nat.lt_mul_div_succ U hVpos
  have h3 : p * V2 ≤ U3 := Nat.div_mul_le_self _ _
  constructor
  · rw [hpd, Nat.le_div_iff_mul_le hV2pos]
    by_contra hc
    have hc : U3 + 1 ≤ q * V2 := by omega
    have : (U3 + 1) * X ≤ q * V2 * X := Nat.mul_le_mul_right _ hc
    have h4 : q * V2 * X ≤ q * V := by
      rw [hV, Nat.mul_add, Nat.mul_assoc]; exact Nat.le_add_right _ _
    rw [Nat.add_mul] at this
    omega
  · by_contra hc
    have hc : q + 2 ≤ p := by omega
    have h5 : (q + 2) * V2 ≤ U3 := le_trans (Nat.mul_le_mul_right _ hc) h3
    have h6 : (q + 2) * V2 * X ≤ U3 * X := Nat.mul_le_mul_right _ h5
    -- (q+2)(V - v0) ≤ U < (q+1) V
    have h7 : (q + 2) * V = (q + 2) * V2 * X + (q + 2) * v0 := by rw [hV]; ring
    have h8 : (q + 2) * V = (q + 1) * V + V := by ring
    have h9 : (q + 2) * v0 ≤ (q + 2) * X := Nat.mul_le_mul_left _ hv0.le
    have h10 : V < (q + 2) * X := by omega
    have h11 : V2 * X < (q + 2) * X := by omega
    have h12 : V2 < q + 2 := Nat.lt_of_mul_lt_mul_right h11
    have h13 : 4 * B ≤ B * B := Nat.mul_le_mul_right _ hB
    omega

/-- When the leading digits agree the trial digit is `B - 1`. -/
theorem qhat_max {B Y U V v1 w u : Nat} (hV : V = v1 * Y + w) (hw : w < Y)
    (hv1 : B ≤ 2 * v1) (hU : U = v1 * (B * Y) + u) (hlt : U < V * B) :
    U / V ≤ B - 1 ∧ B - 1 ≤ U / V + 1 := by
  have hVpos : 0 < V := by
    rcases Nat.eq_zero_or_pos V with h | h
    · rw [h, Nat.zero_mul] at hlt; omega
    · exact h
  have hBpos : 0 < B := by
    rcases Nat.eq_zero_or_pos B with h | h
    · rw [h, Nat.mul_zero] at hlt; omega
    · exact h
  have h1 : U / V < B := by rw [Nat.div_lt_iff_lt_mul hVpos, Nat.mul_comm]; exact hlt
  generalize hQ : U / V = Q at *
  refine ⟨by omega, ?_⟩
  rw [← hQ]
  rcases Nat.lt_or_ge B 2 with hB | hB
  · have : B - 1 = 0 := by omega
    rw [this]; exact Nat.zero_le _
  · suffices h : B - 2 ≤ U / V by generalize U / V = Q at *; omega
    rw [Nat.le_div_iff_mul_le hVpos]
    obtain ⟨k, hk⟩ : ∃ k, B = k + 2 := ⟨B - 2, by omega⟩
    rw [hk, Nat.add_sub_cancel, hU, hV]
    have h2 : k * w ≤ k * Y := Nat.mul_le_mul_left _ hw.le
    have h3 : k * Y ≤ 2 * v1 * Y := Nat.mul_le_mul_right _ (by omega)
    have h4 : k * (v1 * Y + w) = k * v1 * Y + k * w := by ring
    have h5 : v1 * (B * Y) = k * v1 * Y + 2 * v1 * Y := by rw [hk]; ring
    rw [h4, h5]
    omega

/-- Multiply-subtract and add-back (steps D4–D6). -/
theorem addback_arith {B Y U V q qh S S' c c' : Nat} (hB : 0 < B) (hY : 0 < Y) (hVpos : 0 < V)
    (hV : V ≤ Y) (hq : q = U / V) (h1 : q ≤ qh) (h2 : qh ≤ q + 1)
    (hS : S + V * qh = U + B * Y * c) (hSlt : S < B * Y) (hc : c ≤ 1) (hc' : c' ≤ 1)
    (hS' : S' + Y * c' = S + V) (hhi : S' / Y = S / Y) :
    (c = 0 → qh = q ∧ S = U % V) ∧
      (c = 1 → qh = q + 1 ∧ S' / Y = B - 1 ∧ c' = 1 ∧ S' = (B - 1) * Y + U % V) := by
  have hU : U = V * q + U % V := by rw [hq]; exact (Nat.div_add_mod U V).symm
  have hR : U % V < V := Nat.mod_lt _ hVpos
  generalize U % V = R at *
  have hqq : qh = q ∨ qh = q + 1 := by omega
  constructor
  · rintro rfl
    rcases hqq with rfl | rfl
    · exact ⟨rfl, by omega⟩
    · exfalso
      rw [Nat.mul_add] at hS; omega
  · rintro rfl
    rcases hqq with rfl | rfl
    · exfalso; omega
    · rw [Nat.mul_add, Nat.mul_one, Nat.mul_one] at hS
      have hSe : S + V = R + B * Y := by omega
      have hBY : B * Y = (B - 1) * Y + Y := by
        obtain ⟨k, rfl⟩ : ∃ k, B = k + 1 := ⟨B - 1, by omega⟩
        rw [Nat.add_sub_cancel]; ring
      have hdiv : S / Y = B - 1 := by
        apply Nat.div_eq_of_lt_le
        · omega
        · rw [Nat.add_mul, Nat.one_mul]; omega
      have hdiv' : S' / Y = B - 1 := by rw [hhi, hdiv]
      have hS'e : S' < ((B - 1) + 1) * Y := by
        rw [← hdiv']; rw [Nat.mul_comm]; exact Nat.lt_mul_div_succ S' hY
      rw [Nat.add_mul, Nat.one_mul] at hS'e
      have hc1 : c' = 1 := by
        rcases (by omega : c' = 0 ∨ c' = 1) with h | h
        · rw [h] at hS'; omega
        · exact h
      rw [hc1, Nat.mul_one] at hS'
      refine ⟨rfl, hdiv', hc1, ?_⟩
      generalize (B - 1) * Y = Z at *
      omega

theorem pow64_succ (k : Nat) : 2 ^ (64 * (k + 1)) = 2 ^ 64 * 2 ^ (64 * k) := by
  rw [show 64 * (k + 1) = 64 + 64 * k by ring, pow_add]

/-- Digits of dividend and divisor and the quality of both trial digits, in any base `B = 2H`. -/
theorem qhat_digits {B H X U V u0 u1 u2 v1 v2 : Nat} (hB : B = 2 * H) (hH : 2 ≤ H) (hX : 0 < X)
    (hv1 : v1 = V / (B * X) % B) (hv2 : v2 = V / X % B) (hu0 : u0 = U / (B * (B * X)) % B)
    (hu1 : u1 = U / (B * X) % B) (hu2 : u2 = U / X % B) (hVlt : V < B * (B * X))
    (hVge : H * (B * X) ≤ V) (hU : U < V * B) :
    H ≤ v1 ∧
    (((u0 * B + u1) * B + u2) / (v1 * B + v2) < B →
      U / V ≤ ((u0 * B + u1) * B + u2) / (v1 * B + v2) ∧
      ((u0 * B + u1) * B + u2) / (v1 * B + v2) ≤ U / V + 1) ∧
    (v1 ≤ u0 → U / V ≤ B - 1 ∧ B - 1 ≤ U / V + 1) := by
  have hBpos : 0 < B := by omega
  have hBX : 0 < B * X := Nat.mul_pos hBpos hX
  have dV : V / (B * X) = V / X / B := by rw [Nat.div_div_eq_div_mul, Nat.mul_comm]
  have dU1 : U / (B * X) = U / X / B := by rw [Nat.div_div_eq_div_mul, Nat.mul_comm]
  have dU0 : U / (B * (B * X)) = U / X / B / B := by
    rw [Nat.div_div_eq_div_mul, Nat.div_div_eq_div_mul]; congr 1; ring
  have v1lt : V / (B * X) < B := by rw [Nat.div_lt_iff_lt_mul hBX]; exact hVlt
  rw [Nat.mod_eq_of_lt v1lt] at hv1
  have u0lt : U / (B * (B * X)) < B := by
    rw [Nat.div_lt_iff_lt_mul (Nat.mul_pos hBpos hBX), Nat.mul_comm]
    exact lt_trans hU (Nat.mul_lt_mul_of_pos_right hVlt hBpos)
  rw [Nat.mod_eq_of_lt u0lt] at hu0
  have hvv : v1 * B + v2 = V / X := by rw [hv1, hv2, dV]; exact Nat.div_add_mod' _ _
  have huu : (u0 * B + u1) * B + u2 = U / X := by
    rw [hu0, hu1, hu2, dU0, dU1, Nat.div_add_mod', Nat.div_add_mod']
  have hv1ge : H ≤ v1 := by rw [hv1, Nat.le_div_iff_mul_le hBX]; exact hVge
  refine ⟨hv1ge, ?_, ?_⟩
  · intro hq
    rw [hvv, huu] at hq ⊢
    refine qhat_bound (B := B) (by omega) (Nat.div_add_mod' U X).symm (Nat.mod_lt _ hX)
      (Nat.div_add_mod' V X).symm (Nat.mod_lt _ hX) ?_ hq
    rw [← hvv]
    calc B * B = 2 * (H * B) := by rw [hB]; ring
      _ ≤ 2 * (v1 * B + v2) := by
        apply Nat.mul_le_mul_left
        exact le_trans (Nat.mul_le_mul_right _ hv1ge) (Nat.le_add_right _ _)
  · intro hle
    have hVY : V = v1 * (B * X) + V % (B * X) := by
      rw [hv1]; exact (Nat.div_add_mod' _ _).symm
    have hw := Nat.mod_lt V hBX
    have hUY : U = u0 * (B * (B * X)) + U % (B * (B * X)) := by
      rw [hu0]; exact (Nat.div_add_mod' _ _).symm
    have heq : u0 = v1 := by
      apply le_antisymm _ hle
      by_contra hc
      have h1 : (v1 + 1) * (B * (B * X)) ≤ U := by
        rw [hUY]
        exact le_trans (Nat.mul_le_mul_right _ (by omega)) (Nat.le_add_right _ _)
      have h2 : V * B ≤ (v1 + 1) * (B * (B * X)) := by
        calc V * B ≤ ((v1 + 1) * (B * X)) * B := by
              apply Nat.mul_le_mul_right
              rw [Nat.add_mul, Nat.one_mul]; omega
          _ = _ := by ring
      omega
    rw [heq] at hUY
    exact qhat_max (Y := B * X) hVY hw (by omega) hUY hU

/-- Dropping the third digit only enlarges the trial quotient. -/
theorem trial_ge {B q v1 v2 r u2 : Nat} (hr : r < v1) (hu : u2 < B) :
    ((q * v1 + r) * B + u2) / (v1 * B + v2) ≤ q := by
  have hB : 0 < B := by omega
  rw [← Nat.lt_succ_iff, Nat.div_lt_iff_lt_mul (by
    have := Nat.mul_pos (show 0 < v1 by omega) hB; omega)]
  calc (q * v1 + r) * B + u2 < (q * v1 + r) * B + B := by omega
    _ = (q * v1 + (r + 1)) * B := by ring
    _ ≤ (q * v1 + v1) * B := Nat.mul_le_mul_right _ (by omega)
    _ = q.succ * (v1 * B) := by rw [Nat.succ_eq_add_one]; ring
    _ ≤ _ := Nat.mul_le_mul_left _ (Nat.le_add_right _ _)

/-- The digit estimate of one Knuth step: the model's `q_hat` is the true digit or one more. -/
theorem qhat_spec (cfg : Cfg) (v : U256) (k : Nat) (u : List W64) (j : Nat)
    (hu : u.length = 5) (hj : j + (k + 2) ≤ 4)
    (hv1 : v.toNat < 2 ^ (64 * (k + 2))) (hv2 : 2 ^ 63 * 2 ^ (64 * (k + 1)) ≤ v.toNat)
    (vn1 vn2 : W64) (hvn1 : vn1.toNat = v.toNat / 2 ^ (64 * (k + 1)) % 2 ^ 64)
    (hvn2 : vn2.toNat = v.toNat / 2 ^ (64 * k) % 2 ^ 64)
    (hU : valL (u.drop j) < v.toNat * 2 ^ 64) :
    ∃ qh : W64, (knuthQhat cfg u (k + 2) vn1 vn2 j : Res ε W64) = .ok qh ∧
      valL (u.drop j) / v.toNat ≤ qh.toNat ∧ qh.toNat ≤ valL (u.drop j) / v.toNat + 1 := by
  have hd : (u.drop j).length = 5 - j := by simp [hu]
  have g0 : ∀ i, (h : j + i < u.length) →
      u[j + i].toNat = valL (u.drop j) / 2 ^ (64 * i) % 2 ^ 64 := by
    intro i h
    rw [← getElem_valL (u.drop j) i (by rw [hd]; omega)]
    simp [List.getElem_drop]
  have hX1 : 2 ^ (64 * (k + 1)) = 2 ^ 64 * 2 ^ (64 * k) := pow64_succ k
  have hX2 : 2 ^ (64 * (k + 2)) = 2 ^ 64 * (2 ^ 64 * 2 ^ (64 * k)) := by
    rw [pow64_succ (k + 1), hX1]
  have hXpos : 0 < 2 ^ (64 * k) := Nat.pow_pos (by norm_num)
  rw [hX1] at hvn1 hv2
  rw [hX2] at hv1
  have hi0 : j + (k + 2) < u.length := by omega
  have hi1 : j + (k + 1) < u.length := by omega
  have hi2 : j + k < u.length := by omega
  have gu0 := g0 (k + 2) hi0
  have gu1 := g0 (k + 1) hi1
  have gu2 := g0 k hi2
  rw [hX2] at gu0
  rw [hX1] at gu1
  obtain ⟨c1, c2, c3⟩ := qhat_digits (H := 2 ^ 63) (by norm_num) (by norm_num) hXpos hvn1 hvn2
    gu0 gu1 gu2 hv1 hv2 hU
  unfold knuthQhat
  rw [show j + (k + 2) - 1 = j + (k + 1) by omega, show j + (k + 2) - 2 = j + k by omega]
  rw [idx_ok hi0, idx_ok hi1, idx_ok hi2]
  simp only [ok_bind]
  clear g0 gu0 gu1 gu2 hX1 hX2 hvn1 hvn2 hv1 hv2
  generalize u[j + (k + 2)] = a0 at *
  generalize u[j + (k + 1)] = a1 at *
  generalize u[j + k] = a2 at *
  by_cases hlt : a0.toNat < vn1.toNat
  · obtain ⟨q, r, h1, e1, f1⟩ := divModWord_spec (ε := ε) cfg a0 a1 vn1 hlt
    have hvpos : 0 < vn1.toNat := by omega
    have hdm : a0.toNat * 2 ^ 64 + a1.toNat = q.toNat * vn1.toNat + r.toNat := by
      rw [e1, f1, Nat.div_add_mod']
    have hr : r.toNat < vn1.toNat := by rw [f1]; exact Nat.mod_lt _ hvpos
    obtain ⟨qh, h2, e2⟩ := qhatLoop_spec (ε := ε) cfg vn1 vn2 a2 c1 _
      (a0.toNat * 2 ^ 64 + a1.toNat) rfl 4 q r hdm (by
        rw [hdm]; exact trial_ge hr a2.isLt) (by omega)
    refine ⟨qh, ?_, ?_⟩
    · rw [if_pos hlt]
      simp only [ok_bind, h1, h2]
    · rw [e2]
      exact c2 (by rw [← e2]; exact qh.isLt)
  · refine ⟨BitVec.allOnes 64, by rw [if_neg hlt], ?_⟩
    rw [show (BitVec.allOnes 64).toNat = 2 ^ 64 - 1 by decide]
    exact c3 (not_lt.1 hlt)

theorem getElem_append_off (a b : List W64) (j i : Nat) (ha : a.length = j)
    (h1 : j + i < (a ++ b).length) (h2 : i < b.length) : (a ++ b)[j + i] = b[i] := by
  subst ha
  simp

theorem addback_set (ac : List W64) (n : Nat) (h : n < ac.length)
    (hx : ac[n].toNat = 2 ^ 64 - 1) :
    valL (ac.set n (ac[n] + b2w true)) + (2 ^ 64 - 1) * 2 ^ (64 * n) = valL ac := by
  have hset := valL_set ac n (ac[n] + b2w true) ac[n] (by simp [h])
  have hzero : (ac[n] + b2w true).toNat = 0 := by
    rw [BitVec.toNat_add, hx, b2w_toNat]; rfl
  rw [hzero, hx] at hset
  rw [← Nat.cast_inj (R := Int)]
  push_cast
  rw [hset]
  push_cast
  ring

/-- One iteration of the main loop computes one digit of the quotient. -/
theorem knuthStep_spec (cfg : Cfg) (v : U256) (k : Nat) (u q : List W64) (j : Nat) (hk : k ≤ 2)
    (hu : u.length = 5) (hql : q.length = 4) (hj : j + (k + 2) ≤ 4)
    (hv1 : v.toNat < 2 ^ (64 * (k + 2))) (hv2 : 2 ^ 63 * 2 ^ (64 * (k + 1)) ≤ v.toNat)
    (vn1 vn2 : W64) (hvn1 : vn1.toNat = v.toNat / 2 ^ (64 * (k + 1)) % 2 ^ 64)
    (hvn2 : vn2.toNat = v.toNat / 2 ^ (64 * k) % 2 ^ 64)
    (hU : valL (u.drop j) < v.toNat * 2 ^ 64) :
    ∃ (u' : List W64) (d : W64),
      (knuthStep cfg v (k + 2) vn1 vn2 j (u, q) : Res ε _) = .ok (u', q.set j d) ∧
      u'.length = 5 ∧ u'.take j = u.take j ∧ valL (u'.drop j) = valL (u.drop j) % v.toNat ∧
      d.toNat = valL (u.drop j) / v.toNat := by
  obtain ⟨qh, hqh, b1, b2⟩ :=
    qhat_spec (ε := ε) cfg v k u j hu hj hv1 hv2 vn1 vn2 hvn1 hvn2 hU
  obtain ⟨l, hl, ll, el⟩ := fullMulU64_spec (ε := ε) cfg v qh
  have hVpos : 0 < v.toNat := lt_of_lt_of_le (by positivity) hv2
  have hjq : j < q.length := by omega
  have hdl : (u.drop j).length = 5 - j := by simp [hu]
  have hlt : (l.take (k + 2 + 1)).length = k + 2 + 1 := by simp [ll]; omega
  have hsub := binopSlice_sub (u.drop j) (l.take (k + 2 + 1)) false (by rw [hlt, hdl]; omega)
  have hslen := binopSlice_length UInt.overflowingSub (u.drop j) (l.take (k + 2 + 1)) false
  have hsdrop := binopSlice_drop UInt.overflowingSub (u.drop j) (l.take (k + 2 + 1)) false
  obtain ⟨sc, hsc⟩ : ∃ sc, sc = binopSlice UInt.overflowingSub (u.drop j)
    (l.take (k + 2 + 1)) false := ⟨_, rfl⟩
  rw [← hsc] at hsub hslen hsdrop
  rw [hdl] at hslen
  rw [hlt] at hsub hsdrop
  have hwt : (v.words.take (k + 2)).length = k + 2 := by simp [words]; omega
  have hadd := binopSlice_add sc.1 (v.words.take (k + 2)) false (by rw [hwt, hslen]; omega)
  have halen := binopSlice_length UInt.overflowingAdd sc.1 (v.words.take (k + 2)) false
  have hadrop := binopSlice_drop UInt.overflowingAdd sc.1 (v.words.take (k + 2)) false
  obtain ⟨ac, hac⟩ : ∃ ac, ac = binopSlice UInt.overflowingAdd sc.1
    (v.words.take (k + 2)) false := ⟨_, rfl⟩
  rw [← hac] at hadd halen hadrop
  rw [hslen] at halen
  rw [hwt] at hadd hadrop
  set Y := 2 ^ (64 * (k + 2)) with hY
  have hYpos : 0 < Y := Nat.pow_pos (by norm_num)
  have hBY : 2 ^ (64 * (k + 2 + 1)) = 2 ^ 64 * Y := pow64_succ (k + 2)
  rw [hBY] at hsub
  have eV : valL (v.words.take (k + 2)) = v.toNat := by
    rw [valL_take, valL_words, ← hY, Nat.mod_eq_of_lt hv1]
  have eP : valL (l.take (k + 2 + 1)) = v.toNat * qh.toNat := by
    rw [valL_take, el, hBY, Nat.mod_eq_of_lt]
    rw [Nat.mul_comm]
    exact Nat.mul_lt_mul'' qh.isLt hv1
  rw [eV] at hadd
  rw [eP] at hsub
  rw [Bool.toNat_false, Nat.add_zero] at hsub hadd
  set U := valL (u.drop j) with hUd
  have hSlt : valL sc.1 < 2 ^ 64 * Y := by
    have h0 : valL sc.1 / (2 ^ 64 * Y) = 0 := by
      rw [← hBY, ← valL_drop, hsdrop, valL_drop, ← hUd, hBY]
      apply Nat.div_eq_of_lt
      calc U < v.toNat * 2 ^ 64 := hU
        _ ≤ Y * 2 ^ 64 := Nat.mul_le_mul_right _ hv1.le
        _ = _ := Nat.mul_comm _ _
    have := (Nat.div_eq_zero_iff).1 h0
    rcases this with h | h
    · exfalso; have := Nat.mul_pos (show 0 < 2 ^ 64 by norm_num) hYpos; omega
    · exact h
  have hhi : valL ac.1 / Y = valL sc.1 / Y := by
    rw [hY, ← valL_drop, hadrop, valL_drop]
  have hBpos : 0 < 2 ^ 64 := by norm_num
  have hab := @addback_arith (2 ^ 64) Y U v.toNat (U / v.toNat) qh.toNat (valL sc.1) (valL ac.1)
    sc.2.toNat ac.2.toNat hBpos hYpos hVpos hv1.le
  have hab := hab rfl b1 b2 hsub hSlt (bool_toNat_le sc.2) (bool_toNat_le ac.2) hadd hhi
  obtain ⟨hc0, hc1⟩ := hab
  have htl : (u.take j).length = j := by simp [hu]; omega
  have hdrop : ∀ s : List W64, (u.take j ++ s).drop j = s := by
    intro s
    conv_lhs => rw [← htl]
    rw [htl]
    exact List.drop_left' htl
  have htake : ∀ s : List W64, (u.take j ++ s).take j = u.take j := by
    intro s
    exact List.take_left' htl
  unfold knuthStep
  simp only [hqh, hl, ok_bind, ← hsc, hdrop, htake, ← hac]
  rw [idx_ok hjq]
  cases hsc2 : sc.2 with
  | false =>
    obtain ⟨e1, e2⟩ := hc0 (by rw [hsc2]; rfl)
    simp only [Bool.false_eq_true, if_false, ok_bind]
    refine ⟨_, qh, rfl, ?_, htake _, ?_, e1⟩
    · rw [List.length_append, htl, hslen]; omega
    · rw [hdrop, e2]
  | true =>
    obtain ⟨e1, e2, e3, e4⟩ := hc1 (by rw [hsc2]; rfl)
    have hcarry : ac.2 = true := by
      cases hb : ac.2 with
      | true => rfl
      | false => rw [hb] at e3; simp at e3
    obtain ⟨q1, hq1, eq1⟩ := UInt.sub_ok (ε := ε) cfg qh 1 (by
      rw [show BitVec.toNat (1 : W64) = 1 from rfl, e1]; exact Nat.le_add_left _ _)
    rw [show BitVec.toNat (1 : W64) = 1 from rfl, e1, Nat.add_sub_cancel] at eq1
    have hil : j + (k + 2) < (u.take j ++ ac.1).length := by
      rw [List.length_append, htl, halen]; clear * - hj; omega
    have hkl : k + 2 < ac.1.length := by rw [halen]; clear * - hj; omega
    have hx : ac.1[k + 2].toNat = 2 ^ 64 - 1 := by
      rw [getElem_valL ac.1 (k + 2) hkl, ← hY, e2, Nat.mod_eq_of_lt (by norm_num)]
    have hset := addback_set ac.1 (k + 2) hkl hx
    rw [← hY, e4] at hset
    have hset := Nat.add_right_cancel (hset.trans (Nat.add_comm _ _))
    have hge : (u.take j ++ ac.1)[j + (k + 2)] = ac.1[k + 2] :=
      getElem_append_off _ _ j (k + 2) htl hil hkl
    simp only [if_true, hq1, ok_bind, idx_ok hil, hge, hcarry]
    refine ⟨_, q1, rfl, ?_, ?_, ?_, eq1⟩
    · rw [List.length_set, List.length_append, htl, halen]; clear * - hj; omega
    · rw [List.take_set_of_le (Nat.le_add_right _ _), htake]
    · rw [List.drop_set, if_neg (not_lt.2 (Nat.le_add_right _ _)), hdrop,
        Nat.add_sub_cancel_left]
      exact hset

theorem fold_arith {V T X Uk : Nat} (hV : 0 < V) :
    (T + X * Uk) % V = (T + X * (Uk % V)) % V ∧
      (T + X * Uk) / V = (T + X * (Uk % V)) / V + X * (Uk / V) := by
  have h : T + X * Uk = (T + X * (Uk % V)) + V * (X * (Uk / V)) := by
    conv_lhs => rw [← Nat.div_add_mod Uk V]
    ring
  rw [h]
  exact ⟨Nat.add_mul_mod_self_left _ _ _, Nat.add_mul_div_left _ _ hV⟩

/-- The main loop: long division of the word list. -/
theorem knuthFold_spec (cfg : Cfg) (v : U256) (k : Nat) (hk : k ≤ 2)
    (hv1 : v.toNat < 2 ^ (64 * (k + 2))) (hv2 : 2 ^ 63 * 2 ^ (64 * (k + 1)) ≤ v.toNat)
    (vn1 vn2 : W64) (hvn1 : vn1.toNat = v.toNat / 2 ^ (64 * (k + 1)) % 2 ^ 64)
    (hvn2 : vn2.toNat = v.toNat / 2 ^ (64 * k) % 2 ^ 64) (i : Nat) :
    ∀ (u q : List W64), u.length = 5 → q.length = 4 → i + (k + 2) ≤ 5 →
      valL (u.drop i) < v.toNat → (∀ t, t < i → q[t]? = some 0) →
      ∃ u' q' : List W64,
        ((List.range i).reverse.foldlM (fun st j => knuthStep cfg v (k + 2) vn1 vn2 j st) (u, q)
          : Res ε _) = .ok (u', q') ∧ u'.length = 5 ∧ q'.length = 4 ∧
        valL u' = valL u % v.toNat ∧ valL q' = valL q + valL u / v.toNat := by
  have hVpos : 0 < v.toNat := lt_of_lt_of_le (by positivity) hv2
  induction i with
  | zero =>
    intro u q hu hq _ hlt _
    rw [List.drop_zero] at hlt
    refine ⟨u, q, rfl, hu, hq, (Nat.mod_eq_of_lt hlt).symm, ?_⟩
    rw [Nat.div_eq_of_lt hlt, Nat.add_zero]
  | succ i ih =>
    intro u q hu hq hi hlt hz
    have hil : i < u.length := by omega
    have hUk : valL (u.drop i) < v.toNat * 2 ^ 64 := by
      rw [List.drop_eq_getElem_cons hil, valL]
      have h1 : (valL (u.drop (i + 1)) + 1) * 2 ^ 64 ≤ v.toNat * 2 ^ 64 :=
        Nat.mul_le_mul_right _ hlt
      rw [Nat.add_mul, Nat.one_mul] at h1
      have h2 := u[i].isLt
      rw [Nat.mul_comm (2 ^ 64)]
      exact lt_of_lt_of_le (by rw [Nat.add_comm]; exact Nat.add_lt_add_left h2 _) h1
    obtain ⟨u1, d, h1, l1, t1, v1, d1⟩ := knuthStep_spec (ε := ε) cfg v k u q i hk hu hq (by omega)
      hv1 hv2 vn1 vn2 hvn1 hvn2 hUk
    obtain ⟨u', q', h2, l2, l3, e2, e3⟩ := ih u1 (q.set i d) l1 (by simp [hq]) (by omega)
      (by rw [v1]; exact Nat.mod_lt _ hVpos) (by
        intro t ht
        rw [List.getElem?_set_ne (by omega)]
        exact hz t (by omega))
    refine ⟨u', q', ?_, l2, l3, ?_, ?_⟩
    · rw [List.range_succ, List.reverse_append, List.reverse_singleton, List.singleton_append,
        List.foldlM_cons, h1, ok_bind, h2]
    · have s0 : valL u = valL (u.take i) + 2 ^ (64 * i) * valL (u.drop i) := by
        conv_lhs => rw [← List.take_append_drop i u]
        rw [valL_append, List.length_take, Nat.min_eq_left hil.le]
      have s1 : valL u1 = valL (u.take i) + 2 ^ (64 * i) * (valL (u.drop i) % v.toNat) := by
        conv_lhs => rw [← List.take_append_drop i u1]
        rw [valL_append, List.length_take, Nat.min_eq_left (by omega), t1, v1]
      rw [e2, s0, s1, ← (fold_arith hVpos).1]
    · have s0 : valL u = valL (u.take i) + 2 ^ (64 * i) * valL (u.drop i) := by
        conv_lhs => rw [← List.take_append_drop i u]
        rw [valL_append, List.length_take, Nat.min_eq_left hil.le]
      have s1 : valL u1 = valL (u.take i) + 2 ^ (64 * i) * (valL (u.drop i) % v.toNat) := by
        conv_lhs => rw [← List.take_append_drop i u1]
        rw [valL_append, List.length_take, Nat.min_eq_left (by omega), t1, v1]
      have hset := valL_set q i d 0 (hz i (by omega))
      rw [show BitVec.toNat (0 : W64) = 0 from rfl, Nat.cast_zero, sub_zero] at hset
      have hset' : valL (q.set i d) = valL q + d.toNat * 2 ^ (64 * i) := by exact_mod_cast hset
      rw [e3, hset', d1, s0, (fold_arith hVpos).2, s1]
      ring

theorem fitsWord_false {v : U256} (h : 2 ^ 64 ≤ v.toNat) : v.fitsWord = false := by
  by_contra hc
  rw [Bool.not_eq_false] at hc
  simp only [fitsWord, Bool.and_eq_true, beq_iff_eq] at hc
  obtain ⟨⟨h1, h2⟩, h3⟩ := hc
  have h0 := v.w0.isLt
  have : v.toNat = v.w0.toNat := by
    simp only [toNat, h1, h2, h3]; simp
  omega

theorem words_getElem (v : U256) (i : Nat) (h : i < v.words.length) :
    (v.words[i]).toNat = v.toNat / 2 ^ (64 * i) % 2 ^ 64 := by
  rw [getElem_valL, valL_words]

/-- `div_mod_knuth` is exact when called as `div_mod` does. -/
theorem divModKnuth_spec (cfg : Cfg) (x v : U256) (k m : Nat) (hk : k ≤ 2) (hm : k + 2 + m ≤ 4)
    (hv1 : v.toNat < 2 ^ (64 * (k + 2))) (hv2 : 2 ^ (64 * (k + 1)) ≤ v.toNat)
    (hbits : v.bits ≤ x.bits) (hx : x.toNat < 2 ^ (64 * (k + 2 + m))) :
    ∃ q r : U256, (divModKnuth cfg x v (k + 2) m : Res ε _) = .ok (q, r) ∧
      q.toNat = x.toNat / v.toNat ∧ r.toNat = x.toNat % v.toNat := by
  have hfw : v.fitsWord = false := fitsWord_false (le_trans (by
    calc 2 ^ 64 ≤ 2 ^ (64 * (k + 1)) := Nat.pow_le_pow_right (by norm_num) (by omega)) hv2)
  have hwl : v.words.length = 4 := rfl
  have hi1 : k + 1 < v.words.length := by omega
  have hXpos : 0 < 2 ^ (64 * (k + 1)) := Nat.pow_pos (by norm_num)
  have hX2 : 2 ^ (64 * (k + 2)) = 2 ^ 64 * 2 ^ (64 * (k + 1)) := pow64_succ (k + 1)
  have hX1 : 2 ^ (64 * (k + 1)) = 2 ^ 64 * 2 ^ (64 * k) := pow64_succ k
  -- the top word of the divisor
  have htop : (v.words[k + 1]).toNat = v.toNat / 2 ^ (64 * (k + 1)) := by
    rw [words_getElem, Nat.mod_eq_of_lt]
    rw [Nat.div_lt_iff_lt_mul hXpos, ← hX2]; exact hv1
  have htop0 : (v.words[k + 1]).toNat ≠ 0 := by
    rw [htop]
    have : 1 ≤ v.toNat / 2 ^ (64 * (k + 1)) := by
      rw [Nat.le_div_iff_mul_le hXpos, Nat.one_mul]; exact hv2
    omega
  obtain ⟨hs, hs1, hs2⟩ := leadingZeros_spec v.words[k + 1] htop0
  rw [htop] at hs1 hs2
  obtain ⟨s, hsd⟩ : ∃ s, s = UInt.leadingZeros v.words[k + 1] := ⟨_, rfl⟩
  rw [← hsd] at hs hs1 hs2
  have hST := shift_pow hs
  have hSpos : 0 < 2 ^ s := Nat.pow_pos (by norm_num)
  have hST' : 2 ^ (64 - 1 - s) * 2 ^ s = 2 ^ 63 := by
    rw [← pow_add, show 64 - 1 - s + s = 63 by omega]
  -- the normalised divisor
  have hn1 : v.toNat * 2 ^ s < 2 ^ (64 * (k + 2)) := by
    rw [hX2, ← hST, Nat.mul_comm (2 ^ s), Nat.mul_right_comm]
    apply Nat.mul_lt_mul_of_pos_right _ hSpos
    rw [Nat.div_lt_iff_lt_mul hXpos] at hs2
    exact hs2
  have hn2 : 2 ^ 63 * 2 ^ (64 * (k + 1)) ≤ v.toNat * 2 ^ s := by
    rw [← hST', Nat.mul_right_comm]
    apply Nat.mul_le_mul_right
    rw [Nat.le_div_iff_mul_le hXpos] at hs1
    exact hs1
  obtain ⟨vs, hvs, evs⟩ := shl_spec (ε := ε) cfg v hs
  rw [Nat.mod_eq_of_lt (lt_of_lt_of_le hn1 (Nat.pow_le_pow_right (by norm_num) (by omega)))] at evs
  obtain ⟨u, hu, lu, eu⟩ := fullShl_spec (ε := ε) cfg x hs
  have hwl' : vs.words.length = 4 := rfl
  have hj1 : k + 1 < vs.words.length := by omega
  have hj0 : k < vs.words.length := by omega
  rw [← evs] at hn1 hn2
  have hfold := knuthFold_spec (ε := ε) cfg vs k hk hn1 hn2 vs.words[k + 1] vs.words[k]
    (words_getElem _ _ hj1) (words_getElem _ _ hj0) (m + 1) u [0, 0, 0, 0] lu rfl (by omega) (by
      rw [valL_drop, eu, Nat.div_lt_iff_lt_mul (Nat.pow_pos (by norm_num))]
      refine lt_of_lt_of_le (Nat.mul_lt_mul_of_lt_of_le hx (?_ : 2 ^ s ≤ 2 ^ 63)
        (Nat.pow_pos (by norm_num))) ?_
      · exact Nat.pow_le_pow_right (by norm_num) (by omega)
      · refine le_trans (le_of_eq ?_) (Nat.mul_le_mul_right _ hn2)
        rw [Nat.mul_comm (2 ^ (64 * (k + 2 + m))), Nat.mul_assoc, ← pow_add 2 (64 * (k + 1)),
          show 64 * (k + 1) + 64 * (m + 1) = 64 * (k + 2 + m) by ring]) (by
      intro t ht
      have : t < 4 := by omega
      match t, this with
      | 0, _ => rfl
      | 1, _ => rfl
      | 2, _ => rfl
      | 3, _ => rfl)
  obtain ⟨u', q', hf, lu', lq', eu', eq'⟩ := hfold
  have hvpos : 0 < v.toNat := by omega
  obtain ⟨r, hr, er⟩ := fullShr_spec (ε := ε) cfg u' hs lu' (by
    rw [eu']
    refine lt_trans (Nat.mod_lt _ (by rw [evs]; exact Nat.mul_pos hvpos hSpos)) ?_
    rw [evs]
    exact Nat.mul_lt_mul_of_pos_right (toNat_lt v) hSpos)
  obtain ⟨q, hq, eq⟩ := ofWords_ok (ε := ε) lq'
  refine ⟨q, r, ?_, ?_, ?_⟩
  · unfold divModKnuth
    rw [show k + 2 - 1 = k + 1 by omega, show k + 2 - 2 = k by omega]
    simp only [debugAssert, hfw, hbits, hm, decide_true, Bool.not_false, Bool.and_self,
      Bool.not_true, Bool.and_false, Bool.false_eq_true, if_false, ok_bind, idx_ok hi1, ← hsd, hvs,
      hu, idx_ok hj1, idx_ok hj0, hf, hr, hq]
  · rw [← valL_words, eq, eq', eu, evs, Nat.mul_div_mul_right _ _ hSpos]
    simp [valL]
  · rw [er, eu', eu, evs, Nat.mul_mod_mul_right, Nat.mul_div_cancel _ hSpos]

theorem le_bits {x y : U256} (h : x.bits < y.bits) : x.toNat < y.toNat := by
  have hy : y.toNat ≠ 0 := fun h0 => by have := bits_zero y h0; omega
  obtain ⟨_, _, h3, _⟩ := bits_spec y hy
  rcases Nat.eq_zero_or_pos x.toNat with h0 | h0
  · omega
  · obtain ⟨_, _, _, h4⟩ := bits_spec x (by omega)
    exact lt_of_lt_of_le h4 (le_trans (Nat.pow_le_pow_right (by norm_num) (by omega)) h3)

/-- `div_mod`: quotient and remainder are exact for every non-zero divisor. -/
theorem divMod_spec (cfg : Cfg) (x y : U256) (hy : y.toNat ≠ 0) :
    ∃ q r : U256, (divMod cfg x y : Res ε _) = .ok (q, r) ∧
      q.toNat = x.toNat / y.toNat ∧ r.toNat = x.toNat % y.toNat := by
  obtain ⟨y1, y2, y3, y4⟩ := bits_spec y hy
  unfold divMod
  have hne : decide (y.bits ≠ 0) = true := by simp; omega
  simp only [rustAssert, hne, if_true, ok_bind]
  by_cases hlt : x.bits < y.bits
  · rw [if_pos hlt]
    have := le_bits hlt
    exact ⟨zero, x, rfl, by rw [Nat.div_eq_of_lt this]; rfl, (Nat.mod_eq_of_lt this).symm⟩
  · rw [if_neg hlt]
    by_cases h64 : y.bits ≤ 64
    · rw [if_pos h64]
      have hylt : y.toNat < 2 ^ 64 :=
        lt_of_lt_of_le y4 (Nat.pow_le_pow_right (by norm_num) h64)
      have hyw : y.w0.toNat = y.toNat := by
        have h0 := y.w0.isLt
        simp only [toNat] at hylt ⊢
        omega
      obtain ⟨q, r, h, e1, e2⟩ := divModSmall_spec (ε := ε) cfg x y.w0 (by omega)
      rw [hyw] at e1 e2
      exact ⟨q, r, h, e1, e2⟩
    · rw [if_neg h64]
      have hxne : x.toNat ≠ 0 := fun h0 => by have := bits_zero x h0; omega
      obtain ⟨x1, x2, x3, x4⟩ := bits_spec x hxne
      obtain ⟨k, hk⟩ : ∃ k, 1 + (y.bits - 1) / 64 = k + 2 :=
        ⟨(y.bits - 1) / 64 - 1, by omega⟩
      obtain ⟨m, hm⟩ : ∃ m, 1 + (x.bits - 1) / 64 = k + 2 + m :=
        ⟨1 + (x.bits - 1) / 64 - (k + 2), by omega⟩
      have hdx : decide (0 < x.bits) = true := by simpa using x1
      have hdy : decide (0 < y.bits) = true := by simpa using y1
      simp only [wordCount, debugAssert, hdx, hdy, Bool.not_true, Bool.and_false,
        Bool.false_eq_true, if_false, ok_bind]
      rw [hk, hm, show k + 2 + m - (k + 2) = m by omega]
      apply divModKnuth_spec (ε := ε) cfg x y k m (by omega) (by omega)
      · exact lt_of_lt_of_le y4 (Nat.pow_le_pow_right (by norm_num) (by omega))
      · exact le_trans (Nat.pow_le_pow_right (by norm_num) (by omega)) y3
      · omega
      · exact lt_of_lt_of_le x4 (Nat.pow_le_pow_right (by norm_num) (by omega))

theorem div_spec (cfg : Cfg) (x y : U256) (hy : y.toNat ≠ 0) :
    ∃ q : U256, (div cfg x y : Res ε _) = .ok q ∧ q.toNat = x.toNat / y.toNat := by
  obtain ⟨q, r, h, e, _⟩ := divMod_spec (ε := ε) cfg x y hy
  exact ⟨q, by simp only [div, h, ok_bind], e⟩

/-- Division by zero panics (`assert!`). -/
theorem div_zero (cfg : Cfg) (x y : U256) (hy : y.toNat = 0) :
    (div cfg x y : Res ε _) = .panic := by
  have h0 : y.bits = 0 := bits_zero y hy
  simp [div, divMod, rustAssert, h0]

end U256

end Fixnum
