import Verif.Props.Programs
import Mathlib.Algebra.BigOperators.Fin
import Mathlib.Algebra.BigOperators.Group.Finset.Piecewise
import Mathlib.Algebra.Order.BigOperators.Group.Finset

/-! # Property C119: a ledger neither creates nor loses money

Client code: an array of balances; a transfer takes an amount from one account with `csub` and adds it to
another with `cadd`, after checking that it is not negative and not more than the balance; a fee is a
transfer of `amount.rmul(rate, mode)?`.  A move that fails is skipped. -/

namespace Fixnum

open Res Spec

variable {L : Layout} {P n : Nat}

/-- The moves. -/
inductive Move (L : Layout) (P n : Nat)
  | transfer (i j : Fin n) (amount : FP L P)
  | fee (i j : Fin n) (amount rate : FP L P) (mode : RoundMode)

/-- `if amount < ZERO || balance[i] < amount { return Err(..) }
balance[i] = balance[i].csub(amount)?; balance[j] = balance[j].cadd(amount)?` on a copy of the array. -/
def doTransfer (s : Fin n → FP L P) (i j : Fin n) (x : FP L P) : Res ArithErr (Fin n → FP L P) := do
  if FP.cmp x FP.zero = .lt ∨ FP.cmp (s i) x = .lt then .err .domainViolation
  else do
    let a ← FP.csub (s i) x
    let s := Function.update s i a
    let b ← FP.cadd (s j) x
    .ok (Function.update s j b)

/-- One move. -/
def Move.run (cfg : Cfg) (s : Fin n → FP L P) : Move L P n → Res ArithErr (Fin n → FP L P)
  | .transfer i j x => doTransfer s i j x
  | .fee i j x r mode => do
    let f ← FP.rmul cfg x r mode
    doTransfer s i j f

/-- A sequence of moves; after an error the balances are as before. -/
def runMoves (cfg : Cfg) : List (Move L P n) → (Fin n → FP L P) → Res ArithErr (Fin n → FP L P)
  | [], s => .ok s
  | m :: ms, s =>
    match m.run cfg s with
    | .ok s' => runMoves cfg ms s'
    | .err _ => runMoves cfg ms s
    | .fault k => .fault k

/-- What a transfer is to do: the amount leaves one balance and arrives at the other. -/
def Spec.Moved (s : Fin n → FP L P) (i j : Fin n) (q : ℚ) (s' : Fin n → FP L P) : Prop :=
  ∀ k, value (s' k) = value (s k) - (if k = i then q else 0) + (if k = j then q else 0)

/-- For the examples: an outcome is given by its balances one by one. -/
theorem ok_of_balances {r : Res ArithErr (Fin n → FP L P)} {s : Fin n → FP L P}
    (h : (match r with
      | .ok t => decide (∀ k, t k = s k)
      | _ => false) = true) : r = .ok s := by
  cases r with
  | ok t => exact congrArg _ (funext (of_decide_eq_true h))
  | err e => cases h
  | fault k => cases h

theorem doTransfer_ok {s s' : Fin n → FP L P} {i j : Fin n} {x : FP L P}
    (h : doTransfer s i j x = .ok s') :
    0 ≤ value x ∧ value x ≤ value (s i) ∧ Moved s i j (value x) s' := by
  unfold doTransfer at h
  split at h
  · cases h
  · rename_i hc
    rw [not_or, C54_cmp, C54_cmp, compare_lt_iff_lt, compare_lt_iff_lt, not_lt, not_lt, C52_zero] at hc
    obtain ⟨a, ha, h⟩ := bind_ok_of h
    obtain ⟨b, hb, h⟩ := bind_ok_of h
    injection h with h
    subst h
    have ha := C02_csub_ok _ _ _ ha
    have hb := C01_cadd_ok _ _ _ hb
    refine ⟨hc.1, hc.2, fun k => ?_⟩
    by_cases hj : k = j
    · subst hj
      rw [Function.update_self, hb]
      by_cases hi : k = i
      · subst hi
        rw [Function.update_self, ha]
        simp
      · rw [Function.update_of_ne hi]
        simp [hi]
    · rw [Function.update_of_ne hj]
      by_cases hi : k = i
      · subst hi
        rw [Function.update_self, ha]
        simp [hj]
      · rw [Function.update_of_ne hi]
        simp [hi, hj]

theorem moved_total {s s' : Fin n → FP L P} {i j : Fin n} {q : ℚ} (h : Moved s i j q s') :
    ∑ k, value (s' k) = ∑ k, value (s k) := by
  rw [Finset.sum_congr rfl fun k _ => h k, Finset.sum_add_distrib, Finset.sum_sub_distrib]
  simp

theorem moved_nonneg {s s' : Fin n → FP L P} {i j : Fin n} {q : ℚ} (h : Moved s i j q s')
    (h0 : 0 ≤ q) (hq : q ≤ value (s i)) (hs : ∀ k, 0 ≤ value (s k)) (k : Fin n) : 0 ≤ value (s' k) := by
  rw [h k]
  have := hs k
  by_cases hi : k = i
  · subst hi
    rw [if_pos rfl]
    split <;> linarith
  · rw [if_neg hi]
    split <;> linarith

theorem representable_upTo {c : FP L P} {z : Int} (h0 : 0 ≤ (z : ℚ) / 10 ^ P)
    (h : (z : ℚ) / 10 ^ P ≤ value c) : Representable L P ((z : ℚ) / 10 ^ P) := by
  have hp := ten_pow_pos P
  rw [representable_iff, fits_half]
  have hf := (fits_half L _).1 (toInt_fits c.inner)
  have hh := half_pos L
  unfold value at h
  rw [div_le_div_iff_of_pos_right hp] at h
  have h : z ≤ c.inner.toInt := by exact_mod_cast h
  have h0 : 0 ≤ z := by
    rw [le_div_iff₀ hp, zero_mul] at h0
    exact_mod_cast h0
  omega

theorem representable_add {c x y : FP L P} (h0 : 0 ≤ value x + value y)
    (h : value x + value y ≤ value c) : Representable L P (value x + value y) := by
  have e : value x + value y = ((x.inner.toInt + y.inner.toInt : Int) : ℚ) / 10 ^ P := by
    unfold value; push_cast; ring
  rw [e] at h0 h ⊢
  exact representable_upTo h0 h

theorem representable_sub {c x y : FP L P} (h0 : 0 ≤ value x - value y)
    (h : value x - value y ≤ value c) : Representable L P (value x - value y) := by
  have e : value x - value y = ((x.inner.toInt - y.inner.toInt : Int) : ℚ) / 10 ^ P := by
    unfold value; push_cast; ring
  rw [e] at h0 h ⊢
  exact representable_upTo h0 h

theorem run_ok {cfg : Cfg} {m : Move L P n} {s s' : Fin n → FP L P} (h : m.run cfg s = .ok s') :
    ∃ i j x, doTransfer s i j x = .ok s' := by
  cases m with
  | transfer i j x => exact ⟨i, j, x, h⟩
  | fee i j x r mode =>
    obtain ⟨f, -, h⟩ := bind_ok_of h
    exact ⟨i, j, f, h⟩

/-- C119: no sequence of moves, whether they succeed or fail, changes the total of the balances or makes a
balance negative, in any build and with any rounding of the fees. -/
theorem C119_conserved (cfg : Cfg) (ms : List (Move L P n)) (s s' : Fin n → FP L P)
    (h : runMoves cfg ms s = .ok s') :
    ∑ k, value (s' k) = ∑ k, value (s k) ∧
    ((∀ k, 0 ≤ value (s k)) → ∀ k, 0 ≤ value (s' k)) := by
  induction ms generalizing s with
  | nil => injection h with h; subst h; exact ⟨rfl, id⟩
  | cons m ms ih =>
    unfold runMoves at h
    cases hm : m.run cfg s with
    | ok t =>
      rw [hm] at h
      obtain ⟨h1, h2⟩ := ih t h
      obtain ⟨i, j, x, ht⟩ := run_ok hm
      obtain ⟨x0, xs, mv⟩ := doTransfer_ok ht
      exact ⟨h1.trans (moved_total mv), fun hs => h2 (moved_nonneg mv x0 xs hs)⟩
    | err e => rw [hm] at h; exact ih s h
    | fault k => rw [hm] at h; cases h

-- Two accounts with 1.00 and 0.50: 0.30 is paid with a fee of 3 %, 2.00 are not covered.
example : runMoves ⟨true, true, true, true⟩
    [.transfer 0 1 ⟨30⟩, .fee 0 1 ⟨30⟩ ⟨3⟩ .ceil, .transfer 1 0 ⟨200⟩] ![(⟨100⟩ : FP .i64 2), ⟨50⟩] =
    .ok ![⟨69⟩, ⟨81⟩] := ok_of_balances (by decide +kernel)
example := C119_conserved ⟨true, true, true, true⟩
  [.transfer 0 1 ⟨30⟩, .fee 0 1 ⟨30⟩ ⟨3⟩ .ceil, .transfer 1 0 ⟨200⟩] ![(⟨100⟩ : FP .i64 2), ⟨50⟩]
  ![⟨69⟩, ⟨81⟩] (ok_of_balances (by decide +kernel))

/-- C119: a transfer is carried out exactly if the amount is not negative and covered.  It never overflows,
as long as no balance is negative and the total is in the range of the type. -/
theorem C119_transfer (s : Fin n → FP L P) (hs : ∀ k, 0 ≤ value (s k))
    (ht : ∑ k, value (s k) ≤ maxValue L P) (i j : Fin n) (x : FP L P) :
    (0 ≤ value x ∧ value x ≤ value (s i) →
      ∃ s', doTransfer s i j x = .ok s' ∧ Moved s i j (value x) s') ∧
    (¬ (0 ≤ value x ∧ value x ≤ value (s i)) → doTransfer s i j x = .err .domainViolation) := by
  constructor
  · rintro ⟨h0, h1⟩
    have hc : ¬ (FP.cmp x FP.zero = .lt ∨ FP.cmp (s i) x = .lt) := by
      rw [not_or, C54_cmp, C54_cmp, compare_lt_iff_lt, compare_lt_iff_lt, not_lt, not_lt, C52_zero]
      exact ⟨h0, h1⟩
    obtain ⟨a, ha, va⟩ := (C02_csub_exact (s i) x).1
      (representable_sub (c := s i) (by linarith) (by linarith))
    obtain ⟨b, hb, vb⟩ := (C01_cadd_exact (Function.update s i a j) x).1 (by
      have hle : value (Function.update s i a j) + value x ≤ maxValue L P := by
        by_cases hj : j = i
        · subst hj
          rw [Function.update_self, va]
          have := (C52_bounds (s j)).2
          rw [C52_bounds_value.2] at this
          linarith
        · rw [Function.update_of_ne hj]
          have := Finset.add_le_sum (s := Finset.univ) (f := fun k => value (s k)) (fun k _ => hs k)
            (Finset.mem_univ j) (Finset.mem_univ i) hj
          linarith
      have hge : 0 ≤ value (Function.update s i a j) := by
        by_cases hj : j = i
        · subst hj
          rw [Function.update_self, va]
          linarith
        · rw [Function.update_of_ne hj]
          exact hs j
      rw [← C52_bounds_value.2] at hle
      exact representable_add (c := FP.max) (by linarith) hle)
    have e : doTransfer s i j x = .ok (Function.update (Function.update s i a) j b) := by
      unfold doTransfer
      rw [if_neg hc, ha, ok_bind]
      dsimp only
      rw [hb, ok_bind]
    exact ⟨_, e, (doTransfer_ok e).2.2⟩
  · intro h
    unfold doTransfer
    rw [if_pos]
    rw [C54_cmp, C54_cmp, compare_lt_iff_lt, compare_lt_iff_lt, C52_zero]
    by_contra hc
    rw [not_or, not_lt, not_lt] at hc
    exact h hc

example := (C119_transfer ![(⟨100⟩ : FP .i64 2), ⟨50⟩] (by decide +kernel) (by decide +kernel) 0 1
  ⟨30⟩).1 (by decide +kernel)
example := (C119_transfer ![(⟨100⟩ : FP .i64 2), ⟨50⟩] (by decide +kernel) (by decide +kernel) 0 1
  ⟨101⟩).2 (by decide +kernel)

/-- C119: moves never panic.  A fee rounded to `Nearest` with 38 digits on `i128` may, see C07. -/
theorem C119_returns {cfg : Cfg} (hv : Valid cfg L P) (ms : List (Move L P n))
    (hm : ∀ i j x r, Move.fee i j x r .nearest ∈ ms → ¬ (L = .i128 ∧ P = 38)) (s : Fin n → FP L P) :
    ∃ s', runMoves cfg ms s = .ok s' := by
  have ht : ∀ (s : Fin n → FP L P) i j x, (doTransfer s i j x).Returns := by
    intro s i j x
    unfold doTransfer
    split
    · trivial
    · have h1 := (C02_csub_exact (s i) x).returns
      cases ha : FP.csub (s i) x with
      | err e => trivial
      | fault k => rw [ha] at h1; exact h1
      | ok a =>
        rw [ok_bind]
        dsimp only
        have h2 := (C01_cadd_exact (Function.update s i a j) x).returns
        cases hb : FP.cadd (Function.update s i a j) x with
        | err e => trivial
        | fault k => rw [hb] at h2; exact h2
        | ok b => trivial
  induction ms generalizing s with
  | nil => exact ⟨s, rfl⟩
  | cons m ms ih =>
    have ih := ih fun i j x r h => hm i j x r (List.mem_cons_of_mem _ h)
    unfold runMoves
    have hr : (m.run cfg s).Returns := by
      cases m with
      | transfer i j x => exact ht s i j x
      | fee i j x r mode =>
        unfold Move.run
        have h1 := (C07_rmul_partial hv x r mode (by rintro rfl; exact hm i j x r (by simp))).returns
        dsimp only
        cases hf : FP.rmul cfg x r mode with
        | err e => trivial
        | fault k => rw [hf] at h1; exact h1
        | ok f => exact ht s i j f
    cases hm : m.run cfg s with
    | ok t => exact ih t
    | err e => exact ih s
    | fault k => rw [hm] at hr; exact hr.elim

example := C119_returns (cfg := ⟨true, true, true, true⟩) (by decide)
  [.transfer 0 1 ⟨30⟩, .fee 0 1 ⟨30⟩ ⟨3⟩ .nearest] (fun _ _ _ _ _ => by decide) ![(⟨100⟩ : FP .i64 2), ⟨50⟩]

/-- The net effect of transfers on an account. -/
def Spec.net (ts : List (Fin n × Fin n × FP L P)) (k : Fin n) : ℚ :=
  (ts.map fun t => (if k = t.2.1 then value t.2.2 else 0) - (if k = t.1 then value t.2.2 else 0)).sum

/-- Transfers one after the other, ending with the first error (`?`). -/
def runTransfers : List (Fin n × Fin n × FP L P) → (Fin n → FP L P) → Res ArithErr (Fin n → FP L P)
  | [], s => .ok s
  | t :: ts, s => do
    let s ← doTransfer s t.1 t.2.1 t.2.2
    runTransfers ts s

/-- C119: after transfers every balance has changed by exactly what came in less what went out. -/
theorem C119_net (ts : List (Fin n × Fin n × FP L P)) (s s' : Fin n → FP L P)
    (h : runTransfers ts s = .ok s') (k : Fin n) : value (s' k) = value (s k) + net ts k := by
  induction ts generalizing s with
  | nil => injection h with h; subst h; simp [net]
  | cons t ts ih =>
    obtain ⟨u, hu, h⟩ := bind_ok_of h
    rw [ih u h, (doTransfer_ok hu).2.2 k]
    unfold net
    rw [List.map_cons, List.sum_cons]
    ring

example := C119_net [(0, 1, ⟨30⟩), (1, 0, ⟨80⟩)] ![(⟨100⟩ : FP .i64 2), ⟨50⟩] ![⟨150⟩, ⟨0⟩]
  (ok_of_balances (by decide +kernel)) 1

/-- C119: in whatever order the transfers are made, if all succeed the balances are the same. -/
theorem C119_order (ts us : List (Fin n × Fin n × FP L P)) (hp : ts.Perm us) (s a b : Fin n → FP L P)
    (ha : runTransfers ts s = .ok a) (hb : runTransfers us s = .ok b) : a = b := by
  funext k
  apply value_inj
  rw [C119_net ts s a ha k, C119_net us s b hb k]
  unfold net
  rw [(hp.map _).sum_eq]

example := C119_order [(0, 1, ⟨30⟩), (1, 0, ⟨40⟩)] [(1, 0, ⟨40⟩), (0, 1, ⟨30⟩)] (by decide)
  ![(⟨100⟩ : FP .i64 2), ⟨50⟩] ![⟨110⟩, ⟨40⟩] ![⟨110⟩, ⟨40⟩]
  (ok_of_balances (by decide +kernel)) (ok_of_balances (by decide +kernel))

end Fixnum
