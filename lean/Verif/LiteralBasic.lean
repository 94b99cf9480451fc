import Verif.Literal
import Verif.CoefBasic
import Verif.DisplayBasic
import Verif.RefineText

/-! # What the constant parser computes -/

namespace Fixnum

open Res Spec

variable {L : Layout} {P : Nat} {ε : Type}

theorem intBits_cases (cfg : Cfg) : intBits cfg = 128 ∨ intBits cfg = 64 := by
  unfold intBits; split <;> simp

theorem intBits_pos (cfg : Cfg) : 0 < intBits cfg := by
  rcases intBits_cases cfg with h | h <;> omega

/-- Small numbers fit. -/
theorem small_fits (cfg : Cfg) {z : Int} (h1 : -10 ≤ z) (h2 : z ≤ 10) : Fits (intBits cfg) z := by
  rcases intBits_cases cfg with h | h <;> rw [h] <;> unfold Fits iMin iMax <;> norm_num <;> omega

/-! ## Arithmetic -/

theorem ofInt_congr_add {w : Nat} {a b : BitVec w} {y z : Int} (ha : a = BitVec.ofInt w y)
    (hb : b = BitVec.ofInt w z) : BitVec.ofInt w (a.toInt + b.toInt) = BitVec.ofInt w (y + z) := by
  rw [BitVec.ofInt_add, BitVec.ofInt_toInt, BitVec.ofInt_toInt, ha, hb, ← BitVec.ofInt_add]

theorem ofInt_congr_mul {w : Nat} {a b : BitVec w} {y z : Int} (ha : a = BitVec.ofInt w y)
    (hb : b = BitVec.ofInt w z) : BitVec.ofInt w (a.toInt * b.toInt) = BitVec.ofInt w (y * z) := by
  rw [BitVec.ofInt_mul, BitVec.ofInt_toInt, BitVec.ofInt_toInt, ha, hb, ← BitVec.ofInt_mul]

/-- A result that is not a panic is exact modulo `2^w`; with overflow checks it is exact. -/
def Approx (cfg : Cfg) {w : Nat} (v : BitVec w) (z : Int) : Prop :=
  v = BitVec.ofInt w z ∧ (cfg.overflowChecks = true → v.toInt = z)

theorem arith_approx {cfg : Cfg} {w : Nat} (hw : 0 < w) {z : Int} {v : BitVec w}
    (h : (SInt.arith cfg w z : Res ε _) = .ok v) : Approx cfg v z := by
  unfold SInt.arith at h
  split at h
  · rename_i hf
    cases h
    exact ⟨rfl, fun _ => toInt_ofInt_of_fits hw hf⟩
  · split at h
    · cases h
    · rename_i hc
      cases h
      exact ⟨rfl, fun h => absurd h hc⟩

theorem add_approx {cfg : Cfg} {w : Nat} (hw : 0 < w) {a b v : BitVec w} {y z : Int}
    (ha : Approx cfg a y) (hb : Approx cfg b z) (h : (SInt.add cfg a b : Res ε _) = .ok v) :
    Approx cfg v (y + z) := by
  obtain ⟨h1, h2⟩ := arith_approx hw h
  exact ⟨by rw [h1, ofInt_congr_add ha.1 hb.1], fun hc => by rw [h2 hc, ha.2 hc, hb.2 hc]⟩

theorem mul_approx {cfg : Cfg} {w : Nat} (hw : 0 < w) {a b v : BitVec w} {y z : Int}
    (ha : Approx cfg a y) (hb : Approx cfg b z) (h : (SInt.mul cfg a b : Res ε _) = .ok v) :
    Approx cfg v (y * z) := by
  obtain ⟨h1, h2⟩ := arith_approx hw h
  exact ⟨by rw [h1, ofInt_congr_mul ha.1 hb.1], fun hc => by rw [h2 hc, ha.2 hc, hb.2 hc]⟩

theorem approx_ofInt {cfg : Cfg} {w : Nat} (hw : 0 < w) {z : Int} (h : Fits w z) :
    Approx cfg (BitVec.ofInt w z) z := ⟨rfl, fun _ => toInt_ofInt_of_fits hw h⟩

theorem bind_ok_inv {α β : Type} {r : Res ε α} {f : α → Res ε β} {v : β}
    (h : (r >>= f) = .ok v) : ∃ a, r = .ok a ∧ f a = .ok v := by
  cases r with
  | ok a => exact ⟨a, rfl, h⟩
  | err e => cases h
  | fault k => cases h

/-! ## `pow10` -/

theorem pow10Loop_approx {cfg : Cfg} (k : Nat) : ∀ {r v : BitVec (intBits cfg)} {z : Int},
    Approx cfg r z → (pow10Loop cfg k r : Res ε _) = .ok v → Approx cfg v (z * 10 ^ k) := by
  induction k with
  | zero => intro r v z hr h; cases h; simpa using hr
  | succ k ih =>
    intro r v z hr h
    unfold pow10Loop at h
    obtain ⟨a, h1, h2⟩ := bind_ok_inv h
    have := ih (mul_approx (intBits_pos cfg) hr
      (approx_ofInt (intBits_pos cfg) (small_fits cfg (by norm_num) (by norm_num))) h1) h2
    rwa [pow_succ, mul_comm (10 ^ k), ← mul_assoc]

theorem ten_pow_18_fits (cfg : Cfg) {k : Nat} (h : k ≤ 18) : Fits (intBits cfg) (10 ^ k) := by
  have h1 : (10 : Int) ^ k ≤ 10 ^ 18 := pow_le_pow_right₀ (by norm_num) h
  have h0 : (0 : Int) < 10 ^ k := by positivity
  rcases intBits_cases cfg with h | h <;> rw [h] <;> unfold Fits iMin iMax <;> norm_num <;> omega

theorem pow10_approx {cfg : Cfg} {k : Nat} {v : BitVec (intBits cfg)}
    (h : (pow10 cfg k : Res ε _) = .ok v) : Approx cfg v (10 ^ k) := by
  by_cases hk : k < 19
  · rw [pow10_small cfg hk] at h
    cases h
    exact approx_ofInt (intBits_pos cfg) (ten_pow_18_fits cfg (by omega))
  · unfold pow10 at h
    rw [if_neg hk] at h
    have hi : (idx pow10Table 18 : Res ε Int) = .ok (10 ^ 18) := rfl
    rw [hi, ok_bind] at h
    have := pow10Loop_approx _ (approx_ofInt (intBits_pos cfg) (ten_pow_18_fits cfg le_rfl)) h
    rw [← pow_add] at this
    have e : 18 + (k - 19 + 1) = k := by omega
    rwa [e] at this

theorem pow10_wrap {cfg : Cfg} (hc : cfg.overflowChecks = false) (k : Nat) :
    (pow10 cfg k : Res ε _) = .ok (BitVec.ofInt _ (10 ^ k)) := by
  have hl : ∀ k (r : BitVec (intBits cfg)), ∃ v, (pow10Loop cfg k r : Res ε _) = .ok v := by
    intro k
    induction k with
    | zero => intro r; exact ⟨r, rfl⟩
    | succ k ih =>
      intro r
      unfold pow10Loop SInt.mul
      rw [SInt.arith_wrap cfg hc, ok_bind]
      exact ih _
  have : ∃ v, (pow10 cfg k : Res ε _) = .ok v := by
    by_cases hk : k < 19
    · exact ⟨_, pow10_small cfg hk⟩
    · unfold pow10
      rw [if_neg hk]
      have hi : (idx pow10Table 18 : Res ε Int) = .ok (10 ^ 18) := rfl
      rw [hi, ok_bind]
      exact hl _ _
  obtain ⟨v, hv⟩ := this
  rw [hv, (pow10_approx hv).1]

theorem pow10_fits {cfg : Cfg} {k : Nat} (h : Fits (intBits cfg) (10 ^ k)) :
    (pow10 cfg k : Res ε _) = .ok (BitVec.ofInt _ (10 ^ k)) := by
  by_cases hk : k < 19
  · exact pow10_small cfg hk
  · unfold pow10
    rw [if_neg hk]
    have hi : (idx pow10Table 18 : Res ε Int) = .ok (10 ^ 18) := rfl
    have h18 : (BitVec.ofInt (intBits cfg) (10 ^ 18)).toInt = 10 ^ 18 :=
      toInt_ofInt_of_fits (intBits_pos cfg) (ten_pow_18_fits cfg le_rfl)
    have ep : (10 : Int) ^ 18 * 10 ^ (k - 19 + 1) = 10 ^ k := by
      rw [← pow_add]; congr 1; omega
    rw [hi, ok_bind, pow10Loop_spec cfg _ _ (by rw [h18]; norm_num)
      (by rw [h18, ep]; exact h.2), h18, ep]

/-! ## Digits -/

/-- The byte of a digit. -/
def digitByte (d : Fin 10) : Nat := (digit d).toNat

theorem digitByte_eq (d : Fin 10) : digitByte d = 48 + d := digit_toNat d

theorem parseDigit_digit (cfg : Cfg) (d : Fin 10) :
    (parseDigit cfg (digitByte d) : Res ε _) = .ok (BitVec.ofInt _ (d.val : Int)) := by
  have e : (digitByte d + 256 - 48) % 256 = d.val := by rw [digitByte_eq]; omega
  unfold parseDigit constAssert
  dsimp only
  rw [e, decide_eq_true d.2, if_pos rfl, ok_bind]

theorem parseDigit_inv {cfg : Cfg} {b : Nat} (hb : b < 256) {v : BitVec (intBits cfg)}
    (h : (parseDigit cfg b : Res ε _) = .ok v) :
    ∃ d : Fin 10, b = digitByte d ∧ v = BitVec.ofInt _ (d.val : Int) := by
  unfold parseDigit constAssert at h
  dsimp only at h
  by_cases hd : (b + 256 - 48) % 256 < 10
  · rw [decide_eq_true hd, if_pos rfl, ok_bind] at h
    cases h
    exact ⟨⟨_, hd⟩, by rw [digitByte_eq]; simp only; omega, rfl⟩
  · rw [decide_eq_false hd] at h
    cases h

theorem digit_approx (cfg : Cfg) (d : Fin 10) :
    Approx cfg (BitVec.ofInt (intBits cfg) (d.val : Int)) d.val :=
  approx_ofInt (intBits_pos cfg) (small_fits cfg (by omega) (by omega))

/-! ## `parse_int` -/

theorem parseIntLoop_inv {cfg : Cfg} (bs : List Nat) : ∀ {acc v : BitVec (intBits cfg)} {z : Int},
    (∀ b ∈ bs, b < 256) → Approx cfg acc z → (parseIntLoop cfg bs acc : Res ε _) = .ok v →
    ∃ ds : List (Fin 10), bs = ds.map digitByte ∧ Approx cfg v (z + natOf ds) := by
  induction bs with
  | nil => intro acc v z _ ha h; cases h; exact ⟨[], rfl, by simpa [natOf] using ha⟩
  | cons b bs ih =>
    intro acc v z hb ha h
    unfold parseIntLoop at h
    obtain ⟨dv, h1, k1⟩ := bind_ok_inv h
    obtain ⟨p, h2, k2⟩ := bind_ok_inv k1
    obtain ⟨t, h3, k3⟩ := bind_ok_inv k2
    obtain ⟨acc', h4, k4⟩ := bind_ok_inv k3
    obtain ⟨d, rfl, rfl⟩ := parseDigit_inv (hb b (by simp)) h1
    have hw := intBits_pos cfg
    have a1 := mul_approx hw (digit_approx cfg d) (pow10_approx h2) h3
    obtain ⟨ds, rfl, hv⟩ := ih (fun b hb' => hb b (by simp [hb'])) (add_approx hw ha a1 h4) k4
    refine ⟨d :: ds, rfl, ?_⟩
    rw [natOf_cons]
    rw [List.length_map] at hv
    push_cast
    rwa [← add_assoc]

theorem parseIntLoop_wrap {cfg : Cfg} (hc : cfg.overflowChecks = false) (ds : List (Fin 10)) :
    ∀ acc : BitVec (intBits cfg), ∃ v, (parseIntLoop cfg (ds.map digitByte) acc : Res ε _) = .ok v
    := by
  induction ds with
  | nil => intro acc; exact ⟨acc, rfl⟩
  | cons d ds ih =>
    intro acc
    rw [List.map_cons]
    unfold parseIntLoop SInt.mul SInt.add
    rw [parseDigit_digit, ok_bind, pow10_wrap hc, ok_bind, SInt.arith_wrap cfg hc, ok_bind,
      SInt.arith_wrap cfg hc, ok_bind]
    exact ih _

/-- Number of digits of the largest `Int`. -/
def intDigits (cfg : Cfg) : Nat := if cfg.i128 then 39 else 19

theorem ten_pow_intDigits (cfg : Cfg) {k : Nat} (h : k < intDigits cfg) :
    Fits (intBits cfg) (10 ^ k) := by
  have h0 : (0 : Int) < 10 ^ k := by positivity
  have h1 : (10 : Int) ^ k ≤ 10 ^ (intDigits cfg - 1) :=
    pow_le_pow_right₀ (by norm_num) (by omega)
  have key : ∀ w D : Nat, (10 : Int) ^ (D - 1) ≤ 2 ^ (w - 1) - 1 → (10 : Int) ^ k ≤ 10 ^ (D - 1) →
      Fits w (10 ^ k) := by
    intro w D h2 h3
    have : (0 : Int) < 2 ^ (w - 1) := by positivity
    unfold Fits iMin iMax
    constructor <;> linarith
  refine key _ _ ?_ h1
  unfold intDigits intBits
  split <;> norm_num

theorem parseIntLoop_fits {cfg : Cfg} (ds : List (Fin 10)) (hl : ds.length ≤ intDigits cfg) :
    ∀ acc : BitVec (intBits cfg), 0 ≤ acc.toInt →
      Fits (intBits cfg) (acc.toInt + natOf ds) →
      (parseIntLoop cfg (ds.map digitByte) acc : Res ε _) =
        .ok (BitVec.ofInt _ (acc.toInt + natOf ds)) := by
  have hw := intBits_pos cfg
  induction ds with
  | nil => intro acc _ _; simp [parseIntLoop, natOf]
  | cons d ds ih =>
    intro acc h0 hf
    rw [List.length_cons] at hl
    rw [natOf_cons] at hf ⊢
    have hp := ten_pow_intDigits cfg (k := ds.length) (by omega)
    have hd := (digit_approx cfg d)
    have hd2 : (BitVec.ofInt (intBits cfg) (d.val : Int)).toInt = d.val :=
      toInt_ofInt_of_fits hw (small_fits cfg (by omega) (by omega))
    push_cast at hf ⊢
    have hn0 : (0 : Int) ≤ natOf ds := by positivity
    have hd0 : (0 : Int) ≤ (d.val : Int) * 10 ^ ds.length := by positivity
    have h2w : (0 : Int) < 2 ^ (intBits cfg - 1) := by positivity
    have hf1 : Fits (intBits cfg) ((d.val : Int) * 10 ^ ds.length) := by
      unfold Fits iMin iMax at *; constructor <;> linarith
    have hf2 : Fits (intBits cfg) (acc.toInt + (d.val : Int) * 10 ^ ds.length) := by
      unfold Fits iMin iMax at *; constructor <;> linarith
    rw [List.map_cons]
    unfold parseIntLoop SInt.mul SInt.add
    rw [parseDigit_digit, ok_bind, List.length_map, pow10_fits hp, ok_bind, hd2,
      toInt_ofInt_of_fits hw hp, SInt.arith_fits cfg hf1, ok_bind, toInt_ofInt_of_fits hw hf1,
      SInt.arith_fits cfg hf2, ok_bind]
    have e := toInt_ofInt_of_fits hw hf2
    rw [ih (by omega) _ (by rw [e]; linarith) (by rw [e, add_assoc]; exact hf), e, add_assoc]

/-! ## `parse_fixed` -/

/-- The bytes of the sign. -/
def signBytes : Option Bool → List Nat
  | none => []
  | some true => [45]
  | some false => [43]

/-- The point and what follows it. -/
def tailBytes : Option (List Nat) → List Nat
  | none => []
  | some f => 46 :: f

/-- `parse_fixed` on text split into sign, part before and part after the point. -/
def parseFixedParts (cfg : Cfg) (sg : Option Bool) (ib : List Nat) (fb : Option (List Nat))
    (coef : BitVec (intBits cfg)) : Res ε (BitVec (intBits cfg)) :=
  match fb with
  | none => do
    let integral ← parseIntLoop cfg ib (BitVec.ofInt _ 0)
    let t ← SInt.mul cfg (BitVec.ofInt _ (sgn sg)) integral
    SInt.mul cfg t coef
  | some fb => do
    let integral ← parseIntLoop cfg ib (BitVec.ofInt _ 0)
    let exp ← pow10 cfg fb.length
    constAssert (decide (exp.toInt ≤ coef.toInt))
    let fractional ← parseIntLoop cfg fb (BitVec.ofInt _ 0)
    let finalIntegral ← SInt.mul cfg integral coef
    let t ← SInt.div coef exp
    let finalFractional ← SInt.mul cfg t fractional
    let s ← SInt.add cfg finalIntegral finalFractional
    SInt.mul cfg (BitVec.ofInt _ (sgn sg)) s

/-- How text is split: no point before the point, and no sign after a missing sign. -/
def SplitOk (sg : Option Bool) (ib : List Nat) (fb : Option (List Nat)) : Prop :=
  46 ∉ ib ∧ (sg = none → ib.head? ≠ some 45 ∧ ib.head? ≠ some 43 ∧ (ib = [] → fb ≠ none))

theorem findByte_none {bs : List Nat} (h : 46 ∉ bs) : findByte bs 46 = none := by
  unfold findByte
  rw [List.findIdx?_eq_none_iff]
  intro x hx
  rw [beq_eq_false_iff_ne]
  rintro rfl
  exact h hx

theorem findByte_some {a b : List Nat} (h : 46 ∉ a) : findByte (a ++ 46 :: b) 46 = some a.length := by
  unfold findByte
  induction a with
  | nil => simp [List.findIdx?_cons]
  | cons c a ih =>
    rw [List.mem_cons, not_or] at h
    rw [List.cons_append, List.findIdx?_cons, ih h.2, beq_eq_false_iff_ne.2 (Ne.symm h.1)]
    simp

theorem parseFixed_parts (cfg : Cfg) {sg : Option Bool} {ib : List Nat} {fb : Option (List Nat)}
    (h : SplitOk sg ib fb) (coef : BitVec (intBits cfg)) :
    (parseFixed cfg (signBytes sg ++ ib ++ tailBytes fb) coef : Res ε _) =
      parseFixedParts cfg sg ib fb coef := by
  obtain ⟨h1, h2⟩ := h
  have hs : 46 ∉ signBytes sg := by rcases sg with _ | _ | _ <;> simp [signBytes]
  have hsi : 46 ∉ signBytes sg ++ ib := by rw [List.mem_append, not_or]; exact ⟨hs, h1⟩
  obtain ⟨c, hc, e1, e2⟩ : ∃ c, (idx (signBytes sg ++ ib ++ tailBytes fb) 0 : Res ε Nat) = .ok c ∧
      (if c = 45 then (-1 : Int) else 1) = sgn sg ∧
      (if c = 45 ∨ c = 43 then 1 else 0) = (signBytes sg).length := by
    rcases sg with _ | _ | _
    · obtain ⟨a1, a2, a3⟩ := h2 rfl
      rcases ib with _ | ⟨c, ib⟩
      · rcases fb with _ | fb
        · exact absurd rfl (a3 rfl)
        · exact ⟨46, rfl, rfl, rfl⟩
      · simp only [List.head?_cons, ne_eq, Option.some.injEq] at a1 a2
        refine ⟨c, rfl, ?_, ?_⟩
        · rw [if_neg a1]; rfl
        · rw [if_neg (by simp [a1, a2])]; rfl
    · exact ⟨43, rfl, rfl, rfl⟩
    · exact ⟨45, rfl, rfl, rfl⟩
  have hpi : ∀ tl : List Nat, ((signBytes sg ++ ib ++ tl).drop (signBytes sg).length).take
      ((signBytes sg ++ ib).length - (signBytes sg).length) = ib := by
    intro tl
    rw [List.append_assoc, List.drop_left, List.length_append, Nat.add_sub_cancel_left,
      List.take_left]
  unfold parseFixed
  rw [hc, ok_bind]
  dsimp only
  rw [e1, e2]
  unfold parseInt
  rcases fb with _ | fb
  · simp only [tailBytes, List.append_nil] at *
    rw [findByte_none hsi]
    have := hpi []
    rw [List.append_nil] at this
    dsimp only
    rw [this]
    rfl
  · simp only [tailBytes] at *
    rw [findByte_some hsi]
    dsimp only
    rw [hpi]
    have e3 : (signBytes sg ++ ib ++ 46 :: fb).length - (signBytes sg ++ ib).length - 1 =
        fb.length := by
      rw [List.length_append (as := signBytes sg ++ ib), List.length_cons]; omega
    have e4 : ((signBytes sg ++ ib ++ 46 :: fb).drop ((signBytes sg ++ ib).length + 1)).take
        ((signBytes sg ++ ib ++ 46 :: fb).length - ((signBytes sg ++ ib).length + 1)) = fb := by
      have : (signBytes sg ++ ib ++ 46 :: fb).drop ((signBytes sg ++ ib).length + 1) = fb := by
        rw [← List.drop_drop, List.drop_left]; rfl
      rw [this, List.take_of_length_le]
      rw [List.length_append (as := signBytes sg ++ ib), List.length_cons]; omega
    rw [e3, e4]
    rfl

/-- Every non-empty text is split in this way. -/
theorem split_exists (bs : List Nat) (h : bs ≠ []) : ∃ sg ib fb, SplitOk sg ib fb ∧
    bs = signBytes sg ++ ib ++ tailBytes fb := by
  have key : ∀ r : List Nat, ∃ ib fb, 46 ∉ ib ∧ r = ib ++ tailBytes fb := by
    intro r
    induction r with
    | nil => exact ⟨[], none, by simp, rfl⟩
    | cons c r ih =>
      by_cases hc : c = 46
      · exact ⟨[], some r, by simp, by rw [hc]; rfl⟩
      · obtain ⟨ib, fb, h1, h2⟩ := ih
        exact ⟨c :: ib, fb, by
          rw [List.mem_cons, not_or]; exact ⟨Ne.symm hc, h1⟩, by rw [h2]; rfl⟩
  cases bs with
  | nil => exact absurd rfl h
  | cons c r =>
    by_cases h1 : c = 45
    · obtain ⟨ib, fb, h2, h3⟩ := key r
      exact ⟨some true, ib, fb, ⟨h2, by simp⟩, by rw [h1, h3]; rfl⟩
    · by_cases h1' : c = 43
      · obtain ⟨ib, fb, h2, h3⟩ := key r
        exact ⟨some false, ib, fb, ⟨h2, by simp⟩, by rw [h1', h3]; rfl⟩
      · obtain ⟨ib, fb, h2, h3⟩ := key (c :: r)
        refine ⟨none, ib, fb, ⟨h2, fun _ => ?_⟩, by rw [h3]; rfl⟩
        rcases ib with _ | ⟨d, ib⟩
        · refine ⟨by simp, by simp, fun _ => ?_⟩
          rintro rfl
          cases h3
        · rw [List.cons_append, List.cons.injEq] at h3
          rw [h3.1] at h1 h1'
          simp [h1, h1']

/-! ## Literals -/

/-- The bytes of the text of a literal. -/
def literalBytes (l : Literal) : List Nat := l.text.map Char.toNat

theorem literalBytes_eq (l : Literal) : literalBytes l =
    signBytes l.sign ++ l.int.map digitByte ++
      tailBytes (l.frac.map fun f => f.map digitByte) := by
  obtain ⟨sg, i, f⟩ := l
  have hd : ∀ ds : List (Fin 10), (ds.map digit).map Char.toNat = ds.map digitByte := by
    intro ds; rw [List.map_map]; rfl
  unfold literalBytes Literal.text
  rw [List.map_append, List.map_append, hd]
  congr 1
  · congr 1
    rcases sg with _ | _ | _ <;> rfl
  · rcases f with _ | f
    · rfl
    · show _ :: _ = _ :: _
      rw [hd]; rfl

theorem split_literal {l : Literal} (h : l.int ≠ []) :
    SplitOk l.sign (l.int.map digitByte) (l.frac.map fun f => f.map digitByte) := by
  constructor
  · intro h'
    obtain ⟨d, _, hd⟩ := List.mem_map.1 h'
    rw [digitByte_eq] at hd; omega
  · intro _
    obtain ⟨d, ds, e⟩ : ∃ d ds, l.int = d :: ds := by
      rcases hi : l.int with _ | ⟨d, ds⟩
      · exact absurd hi h
      · exact ⟨d, ds, rfl⟩
    rw [e, List.map_cons, List.head?_cons, digitByte_eq]
    simp only [ne_eq, Option.some.injEq, List.cons_ne_nil, false_imp_iff, and_true]
    omega

theorem sgn_approx (cfg : Cfg) (sg : Option Bool) :
    Approx cfg (BitVec.ofInt (intBits cfg) (sgn sg)) (sgn sg) := by
  refine approx_ofInt (intBits_pos cfg) ?_
  rcases sgn_cases sg with e | e <;> rw [e] <;> exact small_fits cfg (by norm_num) (by norm_num)

/-- If the constant parser returns, the text is a literal and the result is as computed here. -/
theorem parseFixedParts_inv {cfg : Cfg} {sg : Option Bool} {ib : List Nat} {fb : Option (List Nat)}
    (hb : ∀ b ∈ ib, b < 256) (hfb : ∀ f, fb = some f → ∀ b ∈ f, b < 256)
    {coef v : BitVec (intBits cfg)} {c : Int} (hc : Approx cfg coef c)
    (h : (parseFixedParts cfg sg ib fb coef : Res ε _) = .ok v) :
    ∃ i : List (Fin 10), ∃ f : Option (List (Fin 10)), ib = i.map digitByte ∧
      fb = f.map (fun f => f.map digitByte) ∧
      (∀ g, f = some g → ∃ e, (pow10 cfg g.length : Res ε _) = .ok e ∧ e.toInt ≤ coef.toInt ∧
        e.toInt ≠ 0 ∧ Approx cfg v (sgn sg * (natOf i * c +
          coef.toInt.tdiv e.toInt * natOf g))) ∧
      (f = none → Approx cfg v (sgn sg * natOf i * c)) := by
  have hw := intBits_pos cfg
  have h0 : Approx cfg (BitVec.ofInt (intBits cfg) 0) 0 :=
    approx_ofInt hw (small_fits cfg (by norm_num) (by norm_num))
  rcases fb with _ | fb
  · unfold parseFixedParts at h
    obtain ⟨i, h1, k1⟩ := bind_ok_inv h
    obtain ⟨t, h2, k2⟩ := bind_ok_inv k1
    obtain ⟨ds, e, hi⟩ := parseIntLoop_inv ib hb h0 h1
    rw [zero_add] at hi
    exact ⟨ds, none, e, rfl, by simp, fun _ =>
      mul_approx hw (mul_approx hw (sgn_approx cfg sg) hi h2) hc k2⟩
  · unfold parseFixedParts at h
    obtain ⟨i, h1, k1⟩ := bind_ok_inv h
    obtain ⟨e, h2, k2⟩ := bind_ok_inv k1
    obtain ⟨u, h3, k3⟩ := bind_ok_inv k2
    obtain ⟨f, h4, k4⟩ := bind_ok_inv k3
    obtain ⟨fi, h5, k5⟩ := bind_ok_inv k4
    obtain ⟨t, h6, k6⟩ := bind_ok_inv k5
    obtain ⟨ff, h7, k7⟩ := bind_ok_inv k6
    obtain ⟨s, h8, k8⟩ := bind_ok_inv k7
    obtain ⟨ds, e1, hi⟩ := parseIntLoop_inv ib hb h0 h1
    obtain ⟨fs, e2, hf⟩ := parseIntLoop_inv fb (hfb fb rfl) h0 h4
    rw [zero_add] at hi hf
    have hle : e.toInt ≤ coef.toInt := by
      unfold constAssert at h3
      by_contra hn
      rw [decide_eq_false hn] at h3
      cases h3
    have hdv : e.toInt ≠ 0 ∧ Approx cfg t (coef.toInt.tdiv e.toInt) := by
      unfold SInt.div at h6
      split at h6
      · cases h6
      · rename_i hne
        split at h6
        · rename_i hfit
          cases h6
          exact ⟨hne, approx_ofInt hw hfit⟩
        · cases h6
    refine ⟨ds, some fs, e1, by rw [e2]; rfl, ?_, by simp⟩
    intro g hg
    cases hg
    refine ⟨e, ?_, hle, hdv.1, mul_approx hw (sgn_approx cfg sg)
      (add_approx hw (mul_approx hw hi hc h5) (mul_approx hw hdv.2 hf h7) h8) k8⟩
    rw [e2, List.length_map] at h2
    exact h2

/-! ## The macro -/

theorem cast_ofInt {b w : Nat} (h : b ≤ w) (z : Int) :
    SInt.cast b (BitVec.ofInt w z) = BitVec.ofInt b z := by
  unfold SInt.cast
  apply BitVec.eq_of_toInt_eq
  rw [BitVec.toInt_ofInt, BitVec.toInt_ofInt, BitVec.toInt_ofInt]
  exact Int.bmod_bmod_of_dvd (by exact_mod_cast Nat.pow_dvd_pow 2 h)

theorem bits_le_intBits {cfg : Cfg} (hv : Valid cfg L P) : L.bits ≤ intBits cfg := by
  have h := hv.2
  unfold intBits
  cases L
  · split <;> decide
  · split <;> decide
  · split <;> decide
  · rw [if_pos (h rfl)]; decide

theorem rawMax_le {cfg : Cfg} (hv : Valid cfg L P) : rawMax L ≤ iMax (intBits cfg) := by
  have := bits_le_intBits hv
  unfold rawMax iMax
  have : (2 : Int) ^ (L.bits - 1) ≤ 2 ^ (intBits cfg - 1) :=
    pow_le_pow_right₀ (by norm_num) (by omega)
  omega

theorem ten_pow_int_fits {cfg : Cfg} (hv : Valid cfg L P) {k : Nat} (hk : k ≤ P) :
    Fits (intBits cfg) (10 ^ k) := by
  have h1 := rawMax_le hv
  have h2 := hv.1
  have h3 : (10 : Int) ^ k ≤ 10 ^ P := pow_le_pow_right₀ (by norm_num) hk
  have h4 : (0 : Int) < 10 ^ k := by positivity
  have h5 : (0 : Int) < 2 ^ (intBits cfg - 1) := by positivity
  unfold Fits iMin
  constructor <;> linarith

theorem digitByte_map_inj {a b : List (Fin 10)} (h : a.map digitByte = b.map digitByte) : a = b := by
  refine List.map_injective_iff.2 ?_ h
  intro d e hde
  rw [digitByte_eq, digitByte_eq] at hde
  exact Fin.ext (by omega)

theorem digitByte_lt {ds : List (Fin 10)} : ∀ b ∈ ds.map digitByte, b < 256 := by
  intro b hb
  obtain ⟨d, _, rfl⟩ := List.mem_map.1 hb
  rw [digitByte_eq]; omega

/-- The exact number computed for a literal with at most `P` fractional digits. -/
theorem parts_raw (m : Nat) {f : List (Fin 10)} (h : f.length ≤ P) :
    (m : Int) * 10 ^ P + ((10 : Int) ^ P).tdiv (10 ^ f.length) * natOf f = rawMag P m f := by
  unfold rawMag
  rw [if_pos h]
  have : (10 : Int) ^ P = 10 ^ (P - f.length) * 10 ^ f.length := by
    rw [← pow_add, Nat.sub_add_cancel h]
  congr 2
  rw [this, Int.mul_tdiv_cancel _ (by positivity)]

/-- What the macro computes for a literal with at most `P` fractional digits, if it compiles. -/
theorem fixnumConst_inv {cfg : Cfg} (hv : Valid cfg L P) {l : Literal} (hl : l.int ≠ [])
    (hlen : l.fracDigits.length ≤ P) {x : FP L P}
    (h : (fixnumConst cfg L P (literalBytes l) : Res ε _) = .ok x) :
    x = ⟨BitVec.ofInt _ (sgn l.sign * rawMag P (natOf l.int) l.fracDigits)⟩ := by
  have hw := intBits_pos cfg
  have hc := ten_pow_int_fits hv (le_refl P)
  unfold fixnumConst at h
  rw [pow10_fits hc, ok_bind] at h
  obtain ⟨v, h1, h2⟩ := bind_ok_inv h
  rw [literalBytes_eq, parseFixed_parts cfg (split_literal hl)] at h1
  obtain ⟨i, f, e1, e2, e3, e4⟩ := parseFixedParts_inv digitByte_lt (by
    intro f hf
    rcases hlf : l.frac with _ | g
    · rw [hlf] at hf; cases hf
    · rw [hlf] at hf; cases hf; exact digitByte_lt) (approx_ofInt hw hc) h1
  have e1 := digitByte_map_inj e1
  have hv' : v = BitVec.ofInt _ (sgn l.sign * rawMag P (natOf l.int) l.fracDigits) := by
    unfold Literal.fracDigits at hlen ⊢
    rcases hlf : l.frac with _ | g
    · rcases f with _ | f
      · rw [(e4 rfl).1, ← e1]
        simp [rawMag, natOf, mul_assoc]
      · rw [hlf] at e2; cases e2
    · rcases f with _ | f
      · rw [hlf] at e2; cases e2
      · rw [hlf] at e2 hlen
        simp only [Option.map_some, Option.some.injEq] at e2
        have e2 := digitByte_map_inj e2
        subst e2
        rw [Option.getD_some] at hlen ⊢
        obtain ⟨e, k1, k2, k3, k4⟩ := e3 g rfl
        have hg := ten_pow_int_fits hv hlen
        rw [pow10_fits hg] at k1
        cases k1
        rw [k4.1, ← e1, toInt_ofInt_of_fits hw hc, toInt_ofInt_of_fits hw hg, parts_raw _ hlen]
  cases h2
  rw [hv', cast_ofInt (bits_le_intBits hv)]
  rfl

theorem constAssert_true : (constAssert true : Res ε Unit) = .ok () := rfl

/-- Without overflow checks every literal with at most `P` fractional digits compiles. -/
theorem fixnumConst_wrap {cfg : Cfg} (hv : Valid cfg L P) (ho : cfg.overflowChecks = false)
    {l : Literal} (hl : l.int ≠ []) (hlen : l.fracDigits.length ≤ P) :
    ∃ x, (fixnumConst cfg L P (literalBytes l) : Res ε _) = .ok x := by
  have hw := intBits_pos cfg
  have hc := ten_pow_int_fits hv (le_refl P)
  unfold fixnumConst
  rw [pow10_fits hc, ok_bind, literalBytes_eq, parseFixed_parts cfg (split_literal hl)]
  obtain ⟨i, hi⟩ := parseIntLoop_wrap (ε := ε) ho l.int (BitVec.ofInt _ 0)
  unfold parseFixedParts
  rcases hlf : l.frac with _ | g
  · simp only [Option.map_none]
    unfold SInt.mul
    rw [hi, ok_bind, SInt.arith_wrap cfg ho, ok_bind, SInt.arith_wrap cfg ho, ok_bind]
    exact ⟨_, rfl⟩
  · unfold Literal.fracDigits at hlen
    rw [hlf, Option.getD_some] at hlen
    obtain ⟨f, hf⟩ := parseIntLoop_wrap (ε := ε) ho g (BitVec.ofInt _ 0)
    have hg := ten_pow_int_fits hv hlen
    have hle : (10 : Int) ^ g.length ≤ 10 ^ P := pow_le_pow_right₀ (by norm_num) hlen
    have hd : ((10 : Int) ^ P).tdiv (10 ^ g.length) = 10 ^ (P - g.length) := by
      have : (10 : Int) ^ P = 10 ^ (P - g.length) * 10 ^ g.length := by
        rw [← pow_add, Nat.sub_add_cancel hlen]
      rw [this, Int.mul_tdiv_cancel _ (by positivity)]
    simp only [Option.map_some]
    unfold SInt.mul SInt.div SInt.add
    rw [hi, ok_bind, List.length_map, pow10_fits hg, ok_bind, toInt_ofInt_of_fits hw hc,
      toInt_ofInt_of_fits hw hg, decide_eq_true hle, constAssert_true, ok_bind, hf, ok_bind,
      SInt.arith_wrap cfg ho, ok_bind, if_neg (by positivity), hd,
      if_pos (ten_pow_int_fits hv (by omega)), ok_bind, SInt.arith_wrap cfg ho, ok_bind,
      SInt.arith_wrap cfg ho, ok_bind, SInt.arith_wrap cfg ho, ok_bind]
    exact ⟨_, rfl⟩

theorem nat_fits {w : Nat} {m n : Int} (h0 : 0 ≤ m) (h : m ≤ n) (hf : Fits w n) : Fits w m := by
  have : (0 : Int) < 2 ^ (w - 1) := by positivity
  unfold Fits iMin at *
  constructor <;> linarith [hf.2]

/-- With overflow checks: literals that are not too long and whose magnitude fits `Int` compile. -/
theorem fixnumConst_fits {cfg : Cfg} (hv : Valid cfg L P) {l : Literal} (hl : l.int ≠ [])
    (hlen : l.fracDigits.length ≤ P) (hi : l.int.length ≤ intDigits cfg)
    (hf : Fits (intBits cfg) (rawMag P (natOf l.int) l.fracDigits)) :
    ∃ x, (fixnumConst cfg L P (literalBytes l) : Res ε _) = .ok x := by
  have hw := intBits_pos cfg
  have hc := ten_pow_int_fits hv (le_refl P)
  have hP1 : (1 : Int) ≤ 10 ^ P := one_le_pow₀ (by norm_num)
  have hm0 : (0 : Int) ≤ natOf l.int := by positivity
  have h00 : (BitVec.ofInt (intBits cfg) 0).toInt = 0 := by simp
  have hs : ∀ z : Int, 0 ≤ z → Fits (intBits cfg) z → Fits (intBits cfg) (sgn l.sign * z) := by
    intro z h0 h
    have h2 : (0 : Int) < 2 ^ (intBits cfg - 1) := by positivity
    unfold Fits iMin iMax at *
    rcases sgn_cases l.sign with e | e <;> rw [e] <;> constructor <;> linarith [h.1, h.2]
  have hsg := toInt_ofInt_of_fits hw (z := sgn l.sign) (by
    have := hs 1 (by norm_num) (small_fits cfg (by norm_num) (by norm_num))
    rwa [mul_one] at this)
  unfold fixnumConst
  rw [pow10_fits hc, ok_bind, literalBytes_eq, parseFixed_parts cfg (split_literal hl)]
  unfold parseFixedParts
  unfold Literal.fracDigits at hlen hf
  rcases hlf : l.frac with _ | g
  · rw [hlf] at hf
    have hf : Fits (intBits cfg) (natOf l.int * 10 ^ P) := by simpa [rawMag, natOf] using hf
    have hfi : Fits (intBits cfg) (natOf l.int) := nat_fits hm0 (by nlinarith) hf
    have hp := parseIntLoop_fits (ε := ε) l.int hi (BitVec.ofInt _ 0) (by rw [h00])
      (by rw [h00, zero_add]; exact hfi)
    rw [h00, zero_add] at hp
    simp only [Option.map_none]
    unfold SInt.mul
    have h1 := hs _ hm0 hfi
    have h2 := hs _ (by positivity) hf
    rw [← mul_assoc] at h2
    rw [hp, ok_bind, hsg, toInt_ofInt_of_fits hw hfi, SInt.arith_fits cfg h1, ok_bind,
      toInt_ofInt_of_fits hw h1, toInt_ofInt_of_fits hw hc, SInt.arith_fits cfg h2, ok_bind]
    exact ⟨_, rfl⟩
  · rw [hlf, Option.getD_some] at hlen hf
    rw [← parts_raw _ hlen] at hf
    have hg := ten_pow_int_fits hv hlen
    have hle : (10 : Int) ^ g.length ≤ 10 ^ P := pow_le_pow_right₀ (by norm_num) hlen
    have hd : ((10 : Int) ^ P).tdiv (10 ^ g.length) = 10 ^ (P - g.length) := by
      have : (10 : Int) ^ P = 10 ^ (P - g.length) * 10 ^ g.length := by
        rw [← pow_add, Nat.sub_add_cancel hlen]
      rw [this, Int.mul_tdiv_cancel _ (by positivity)]
    rw [hd] at hf
    have hk1 : (1 : Int) ≤ 10 ^ (P - g.length) := one_le_pow₀ (by norm_num)
    have hg0 : (0 : Int) ≤ natOf g := by positivity
    have hq0 : (0 : Int) ≤ 10 ^ (P - g.length) * natOf g := by positivity
    have hq1 : (natOf g : Int) ≤ 10 ^ (P - g.length) * natOf g := by nlinarith
    have hi0 : (0 : Int) ≤ natOf l.int * 10 ^ P := by positivity
    have hi1 : (natOf l.int : Int) ≤ natOf l.int * 10 ^ P := by nlinarith
    have f1 : Fits (intBits cfg) (natOf l.int * 10 ^ P) := nat_fits hi0 (by linarith) hf
    have f2 : Fits (intBits cfg) (natOf l.int) := nat_fits hm0 hi1 f1
    have f3 : Fits (intBits cfg) (10 ^ (P - g.length) * natOf g) := nat_fits hq0 (by linarith) hf
    have f4 : Fits (intBits cfg) (natOf g) := nat_fits hg0 hq1 f3
    have f5 := ten_pow_int_fits hv (show P - g.length ≤ P by omega)
    have hgl : g.length ≤ intDigits cfg := by
      by_contra hn
      have h1 := rawMax_le hv
      have h2 := hv.1
      have h3 : (10 : Int) ^ intDigits cfg ≤ 10 ^ P := pow_le_pow_right₀ (by norm_num) (by omega)
      have h4 : iMax (intBits cfg) < 10 ^ intDigits cfg := by
        unfold iMax intBits intDigits; split <;> norm_num
      linarith
    have hp := parseIntLoop_fits (ε := ε) l.int hi (BitVec.ofInt _ 0) (by rw [h00])
      (by rw [h00, zero_add]; exact f2)
    have hpf := parseIntLoop_fits (ε := ε) g hgl (BitVec.ofInt _ 0) (by rw [h00])
      (by rw [h00, zero_add]; exact f4)
    rw [h00, zero_add] at hp hpf
    have f6 := hs _ (by linarith) hf
    simp only [Option.map_some]
    unfold SInt.mul SInt.div SInt.add
    rw [hp, ok_bind, List.length_map, pow10_fits hg, ok_bind, toInt_ofInt_of_fits hw hc,
      toInt_ofInt_of_fits hw hg, decide_eq_true hle, constAssert_true, ok_bind, hpf, ok_bind,
      toInt_ofInt_of_fits hw f2, SInt.arith_fits cfg f1, ok_bind, if_neg (by positivity), hd,
      if_pos f5, ok_bind, toInt_ofInt_of_fits hw f5, toInt_ofInt_of_fits hw f4,
      SInt.arith_fits cfg f3, ok_bind, toInt_ofInt_of_fits hw f1, toInt_ofInt_of_fits hw f3,
      SInt.arith_fits cfg hf, ok_bind, hsg, toInt_ofInt_of_fits hw hf, SInt.arith_fits cfg f6,
      ok_bind]
    exact ⟨_, rfl⟩

/-! ## Build profiles -/

theorem refines_parseIntLoop (cfg : Cfg) (bs : List Nat) : ∀ acc,
    Refines (parseIntLoop cfg bs acc : Res ε _) (parseIntLoop (rel cfg) bs acc) := by
  induction bs with
  | nil => intro acc; exact Refines.refl _
  | cons b bs ih =>
    intro acc
    unfold parseIntLoop
    exact Refines.bind (Refines.refl _) fun d => Refines.bind (refines_pow10 cfg _) fun p =>
      Refines.bind (SInt.refines_mul cfg d p) fun t =>
      Refines.bind (SInt.refines_add cfg acc t) fun r => ih r

theorem refines_parseInt (cfg : Cfg) (bs : List Nat) (s e : Nat) :
    Refines (parseInt cfg bs s e : Res ε _) (parseInt (rel cfg) bs s e) :=
  refines_parseIntLoop cfg _ _

theorem refines_parseFixed (cfg : Cfg) (bs : List Nat) (c : BitVec (intBits cfg)) :
    Refines (parseFixed cfg bs c : Res ε _) (parseFixed (rel cfg) bs c) := by
  unfold parseFixed
  refine Refines.bind (Refines.refl _) fun first => ?_
  dsimp only
  rcases findByte bs 46 with _ | p
  · dsimp only
    exact Refines.bind (refines_parseInt cfg _ _ _) fun i =>
      Refines.bind (SInt.refines_mul cfg _ i) fun t => SInt.refines_mul cfg t c
  · dsimp only
    exact Refines.bind (refines_parseInt cfg _ _ _) fun i =>
      Refines.bind (refines_pow10 cfg _) fun e => Refines.bind (Refines.refl _) fun _ =>
      Refines.bind (refines_parseInt cfg _ _ _) fun f =>
      Refines.bind (SInt.refines_mul cfg i c) fun fi =>
      Refines.bind (Refines.refl _) fun t =>
      Refines.bind (SInt.refines_mul cfg t f) fun ff =>
      Refines.bind (SInt.refines_add cfg fi ff) fun s => SInt.refines_mul cfg _ s

theorem refines_fixnumConst (cfg : Cfg) (bs : List Nat) :
    Refines (fixnumConst cfg L P bs : Res ε _) (fixnumConst (rel cfg) L P bs) := by
  unfold fixnumConst
  exact Refines.bind (refines_pow10 cfg _) fun c =>
    Refines.bind (refines_parseFixed cfg bs c) fun v => Refines.refl _

end Fixnum
