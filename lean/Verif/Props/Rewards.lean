import Verif.Props.Trading

/-! # Property C139: rewards in proportion to changing stakes

Client code: rewards are distributed among stakes without visiting them: only the reward per unit of stake is
accumulated, and each participant remembers its value at the last payment. -/

namespace Fixnum

open Res Spec

variable {L : Layout} {P : Nat}

/-- The state of the client: the accumulated reward per unit of stake, the sum of the stakes, and for each
participant the stake and the accumulated reward at the last payment. -/
structure Farm (L : Layout) (P : Nat) where
  acc : FP L P
  total : FP L P
  users : List (FP L P × FP L P)

/-- A reward comes in; participant `i` is paid, and its stake is changed to `s`. -/
inductive FarmOp (L : Layout) (P : Nat) where
  | reward (x : FP L P)
  | settle (i : Nat) (s : FP L P)

/-- The client: `acc = acc.cadd(x.rdiv(total, Floor)?)?`, and a payment of
`stake.rmul(acc.csub(last)?, Floor)?`.  The new state and the payment. -/
def farm (cfg : Cfg) (p : Farm L P) : FarmOp L P → Res ArithErr (Farm L P × FP L P)
  | .reward x => do
    let q ← FP.rdiv cfg x p.total .floor
    let acc ← FP.cadd p.acc q
    .ok (⟨acc, p.total, p.users⟩, FP.zero)
  | .settle i s =>
    match p.users[i]? with
    | none => .ok (p, FP.zero)
    | some u => do
      let d ← FP.csub p.acc u.2
      let out ← FP.rmul cfg u.1 d .floor
      let t ← FP.csub p.total u.1
      let t ← FP.cadd t s
      .ok (⟨p.acc, t, p.users.set i (s, p.acc)⟩, out)

/-- The client's loop; the final state and the payments. -/
def farms (cfg : Cfg) : Farm L P → List (FarmOp L P) → Res ArithErr (Farm L P × List (FP L P))
  | p, [] => .ok (p, [])
  | p, o :: os => do
    let (p, out) ← farm cfg p o
    let (p, outs) ← farms cfg p os
    .ok (p, out :: outs)

/-- What a participant could be paid at the accumulated reward `acc`, exactly. -/
def Spec.claim (acc : ℚ) (u : FP L P × FP L P) : ℚ := value u.1 * (acc - value u.2)

/-- What all participants together could be paid. -/
def Spec.owed (p : Farm L P) : ℚ := (p.users.map (claim (value p.acc))).sum

/-- The total is the sum of the stakes, none of which is negative, and nobody was paid in advance. -/
def Spec.Sound (p : Farm L P) : Prop :=
  value p.total = (p.users.map fun u => value u.1).sum ∧
  ∀ u ∈ p.users, 0 ≤ value u.1 ∧ value u.2 ≤ value p.acc

/-- Neither rewards nor stakes are negative. -/
def Spec.NonnegOp : FarmOp L P → Prop
  | .reward x => 0 ≤ value x
  | .settle _ s => 0 ≤ value s

/-- The reward that comes in. -/
def Spec.income : FarmOp L P → ℚ
  | .reward x => value x
  | .settle _ _ => 0

theorem sum_set {α : Type} (f : α → ℚ) {l : List α} {i : Nat} {u : α} (v : α) (h : l[i]? = some u) :
    ((l.set i v).map f).sum = (l.map f).sum - f u + f v := by
  induction l generalizing i with
  | nil => simp at h
  | cons a l ih =>
    cases i with
    | zero =>
      simp only [List.getElem?_cons_zero, Option.some.injEq] at h
      subst h
      simp only [List.set_cons_zero, List.map_cons, List.sum_cons]
      ring
    | succ i =>
      simp only [List.getElem?_cons_succ] at h
      simp only [List.set_cons_succ, List.map_cons, List.sum_cons, ih h]
      ring

theorem owed_grows (users : List (FP L P × FP L P)) (a b : ℚ) :
    (users.map (claim b)).sum = (users.map (claim a)).sum + (users.map fun u => value u.1).sum * (b - a) := by
  induction users with
  | nil => simp
  | cons u us ih =>
    simp only [List.map_cons, List.sum_cons, ih, claim]
    ring

theorem stakes_nonneg {p : Farm L P} (hp : Sound p) : 0 ≤ value p.total := by
  rw [hp.1]
  refine List.sum_nonneg fun x hx => ?_
  obtain ⟨u, hu, rfl⟩ := List.mem_map.1 hx
  exact (hp.2 u hu).1

/-- C139: a reward raises what all can be paid by no more than the reward, and by less than `total·EPSILON`
less than it; the share of each participant is, within `EPSILON` times the stake, in proportion to the stake. -/
theorem C139_reward {cfg : Cfg} (hv : Valid cfg L P) (p p' : Farm L P) (x out : FP L P) (hp : Sound p)
    (hx : 0 ≤ value x) (h : farm cfg p (.reward x) = .ok (p', out)) :
    Sound p' ∧ value out = 0 ∧ p'.users = p.users ∧
    owed p' ≤ owed p + value x ∧
    owed p + value x - owed p' < value p.total * value (FP.epsilon : FP L P) ∧
    ∀ u ∈ p.users, claim (value p'.acc) u ≤ claim (value p.acc) u + value u.1 * (value x / value p.total) ∧
      claim (value p.acc) u + value u.1 * (value x / value p.total) - claim (value p'.acc) u ≤
        value u.1 * value (FP.epsilon : FP L P) := by
  unfold farm at h
  simp only at h
  obtain ⟨q, h1, h⟩ := bind_ok_of h
  obtain ⟨acc, h2, h⟩ := bind_ok_of h
  cases h
  have hT0 := rdiv_ok_ne_zero hv h1
  have hT : 0 < value p.total := lt_of_le_of_ne (stakes_nonneg hp) (Ne.symm hT0)
  have e1 := ((C10_rdiv_directed hv x p.total .floor (by simp) hT0).ok_iff q).1 h1
  have e2 := C01_cadd_ok _ _ _ h2
  obtain ⟨f1, f2⟩ := roundTo_floor_lt P (value x / value p.total)
  have f3 := roundTo_nonneg P .floor (div_nonneg hx hT.le)
  rw [← e1] at f1 f2 f3
  rw [C52_epsilon.1]
  have g : owed (⟨acc, p.total, p.users⟩ : Farm L P) = owed p + value p.total * value q := by
    unfold owed
    rw [owed_grows p.users (value p.acc) (value acc), ← hp.1, e2]
    ring
  have b1 : value p.total * value q ≤ value x := by
    rw [mul_comm]; exact (le_div_iff₀ hT).1 f1
  have b2 : value x < value p.total * value q + value p.total * (1 / 10 ^ P) := by
    have := (div_lt_iff₀ hT).1 f2
    linarith
  refine ⟨⟨hp.1, fun u hu => ⟨(hp.2 u hu).1, ?_⟩⟩, C52_zero, rfl, by rw [g]; linarith, by rw [g]; linarith,
    fun u hu => ?_⟩
  · have := (hp.2 u hu).2
    simp only
    rw [e2]; linarith
  · have hu := (hp.2 u hu).1
    have c1 := mul_le_mul_of_nonneg_left f1 hu
    have c2 := mul_le_mul_of_nonneg_left f2.le hu
    simp only [claim, e2]
    constructor <;> linarith

/-- C139: a payment is what is due, rounded down; nobody else is affected, and the participant goes on with the
new stake. -/
theorem C139_settle {cfg : Cfg} (hv : Valid cfg L P) (p p' : Farm L P) (i : Nat) (s out : FP L P)
    (u : FP L P × FP L P) (hp : Sound p) (hs : 0 ≤ value s) (hu : p.users[i]? = some u)
    (h : farm cfg p (.settle i s) = .ok (p', out)) :
    Sound p' ∧ p'.acc = p.acc ∧ p'.users = p.users.set i (s, p.acc) ∧ 0 ≤ value out ∧
    value out ≤ claim (value p.acc) u ∧
    claim (value p.acc) u - value out < value (FP.epsilon : FP L P) ∧
    owed p' = owed p - claim (value p.acc) u := by
  unfold farm at h
  simp only [hu] at h
  obtain ⟨d, h1, h⟩ := bind_ok_of h
  obtain ⟨o, h2, h⟩ := bind_ok_of h
  obtain ⟨t, h3, h⟩ := bind_ok_of h
  obtain ⟨t', h4, h⟩ := bind_ok_of h
  cases h
  obtain ⟨u1, u2⟩ := hp.2 u (List.mem_of_getElem? hu)
  have e1 := C02_csub_ok _ _ _ h1
  have e2 := ((C07_rmul_partial hv u.1 d .floor (by simp)).ok_iff out).1 h2
  have e3 := C02_csub_ok _ _ _ h3
  have e4 := C01_cadd_ok _ _ _ h4
  rw [e1] at e2
  obtain ⟨f1, f2⟩ := roundTo_floor_lt P (value u.1 * (value p.acc - value u.2))
  have f3 := roundTo_nonneg P .floor (mul_nonneg u1 (sub_nonneg.2 u2))
  rw [← e2] at f1 f2 f3
  rw [C52_epsilon.1]
  refine ⟨⟨?_, fun v hvm => ?_⟩, rfl, rfl, f3, f1, by unfold claim; linarith, ?_⟩
  · simp only
    rw [sum_set (fun u => value u.1) (s, p.acc) hu, e4, e3, hp.1]
  · rcases List.mem_or_eq_of_mem_set hvm with k | rfl
    · exact hp.2 v k
    · exact ⟨hs, le_refl _⟩
  · unfold owed
    simp only
    rw [sum_set (claim (value p.acc)) (s, p.acc) hu]
    simp [claim]

/-- C139: whatever comes in and whoever is paid in whatever order, with stakes changing at every payment: the
payments, and all that could still be paid, never exceed the rewards, and no payment is negative. -/
theorem C139_solvent {cfg : Cfg} (hv : Valid cfg L P) (os : List (FarmOp L P)) (p p' : Farm L P)
    (outs : List (FP L P)) (hp : Sound p) (ho : ∀ o ∈ os, NonnegOp o)
    (h : farms cfg p os = .ok (p', outs)) :
    Sound p' ∧ (∀ x ∈ outs, 0 ≤ value x) ∧ 0 ≤ owed p' ∧
    (outs.map value).sum + owed p' ≤ owed p + (os.map income).sum := by
  induction os generalizing p outs with
  | nil =>
    cases h
    refine ⟨hp, by simp, List.sum_nonneg fun x hx => ?_, by simp⟩
    obtain ⟨u, hu, rfl⟩ := List.mem_map.1 hx
    exact mul_nonneg (hp.2 u hu).1 (sub_nonneg.2 (hp.2 u hu).2)
  | cons o os ih =>
    unfold farms at h
    obtain ⟨⟨q, out⟩, h1, h⟩ := bind_ok_of h
    obtain ⟨⟨q', outs'⟩, h2, h⟩ := bind_ok_of h
    cases h
    have step : Sound q ∧ 0 ≤ value out ∧ value out + owed q ≤ owed p + income o := by
      have ho := ho o (by simp)
      cases o with
      | reward x =>
        obtain ⟨k1, k2, -, k3, -⟩ := C139_reward hv p q x out hp ho h1
        exact ⟨k1, k2.ge, by rw [k2]; simp only [income]; linarith⟩
      | settle i s =>
        cases hu : p.users[i]? with
        | none =>
          unfold farm at h1
          simp only [hu] at h1
          cases h1
          have hz : value (FP.zero : FP L P) = 0 := C52_zero
          exact ⟨hp, hz.ge, by rw [hz]; simp [income]⟩
        | some u =>
          obtain ⟨k1, -, -, k2, k3, -, k4⟩ := C139_settle hv p q i s out u hp ho hu h1
          exact ⟨k1, k2, by rw [k4]; simp only [income]; linarith⟩
    obtain ⟨s1, s2, s3⟩ := step
    obtain ⟨j1, j2, j3, j4⟩ := ih q outs' s1 (fun o k => ho o (List.mem_cons_of_mem _ k)) h2
    refine ⟨j1, fun x hx => ?_, j3, ?_⟩
    · rcases List.mem_cons.1 hx with rfl | hx
      · exact s2
      · exact j2 x hx
    · simp only [List.map_cons, List.sum_cons]
      linarith

/-- Stakes of 3.00 and 4.00. -/
def farmExample : Farm .i64 2 := ⟨⟨0⟩, ⟨700⟩, [(⟨300⟩, ⟨0⟩), (⟨400⟩, ⟨0⟩)]⟩

theorem farmExample_sound : Sound farmExample := by unfold Sound; decide +kernel

-- 10.00 come in, the first leaves, 10.00 come in, the second is paid
example : (farms debugCfg farmExample [.reward ⟨1000⟩, .settle 0 ⟨0⟩, .reward ⟨1000⟩, .settle 1 ⟨400⟩] >>=
    fun r => (.ok r.2 : Res ArithErr _)) = .ok [⟨0⟩, ⟨426⟩, ⟨0⟩, ⟨1568⟩] := by decide +kernel
example := C139_solvent (cfg := debugCfg) (by decide)
  [.reward ⟨1000⟩, .settle 0 ⟨0⟩, .reward ⟨1000⟩, .settle 1 ⟨400⟩] farmExample
  ⟨⟨392⟩, ⟨400⟩, [(⟨0⟩, ⟨142⟩), (⟨400⟩, ⟨392⟩)]⟩ [⟨0⟩, ⟨426⟩, ⟨0⟩, ⟨1568⟩] farmExample_sound
  (by simp only [List.mem_cons, List.not_mem_nil, or_false, forall_eq_or_imp, forall_eq, NonnegOp]; decide +kernel)
  rfl
example := C139_reward (cfg := debugCfg) (by decide) farmExample ⟨⟨142⟩, ⟨700⟩, [(⟨300⟩, ⟨0⟩), (⟨400⟩, ⟨0⟩)]⟩ ⟨1000⟩
  ⟨0⟩ farmExample_sound (by decide +kernel) rfl
example := C139_settle (cfg := debugCfg) (by decide) (⟨⟨142⟩, ⟨700⟩, [(⟨300⟩, ⟨0⟩), (⟨400⟩, ⟨0⟩)]⟩ : Farm .i64 2)
  ⟨⟨142⟩, ⟨400⟩, [(⟨0⟩, ⟨142⟩), (⟨400⟩, ⟨0⟩)]⟩ 0 ⟨0⟩ ⟨426⟩ (⟨300⟩, ⟨0⟩) (by unfold Sound; decide +kernel)
  (by decide +kernel) rfl rfl

/-- C139: a reward fails only if nothing is staked or the new accumulated reward is out of range; a payment only
if the exact amount or the new total is. -/
theorem C139_returns {cfg : Cfg} (hv : Valid cfg L P) (p : Farm L P) (hp : Sound p) (ha : 0 ≤ value p.acc) :
    (∀ x : FP L P, 0 ≤ value x → 0 < value p.total →
      value p.acc + value x / value p.total ≤ maxValue L P → ∃ r, farm cfg p (.reward x) = .ok r) ∧
    (∀ x : FP L P, value p.total = 0 → farm cfg p (.reward x) = .err .divisionByZero) ∧
    (∀ (i : Nat) (s : FP L P) (u : FP L P × FP L P), p.users[i]? = some u → 0 ≤ value s → 0 ≤ value u.2 →
      claim (value p.acc) u ≤ maxValue L P → value p.total - value u.1 + value s ≤ maxValue L P →
      ∃ r, farm cfg p (.settle i s) = .ok r) ∧
    (∀ (i : Nat) (s : FP L P), p.users[i]? = none → farm cfg p (.settle i s) = .ok (p, FP.zero)) := by
  have hz : value (FP.zero : FP L P) = 0 := C52_zero
  have hM : value (FP.max : FP L P) = maxValue L P := C52_bounds_value.2
  refine ⟨fun x hx hT h => ?_, fun x h => ?_, fun i s u hu hs hu2 h1 h2 => ?_, fun i s h => ?_⟩
  · have q0 := div_nonneg hx hT.le
    obtain ⟨q, k1, e1⟩ := (C10_rdiv_directed hv x p.total .floor (by simp) hT.ne').1
      (representable_within .floor FP.zero FP.max (by rw [hz]; exact q0) (by rw [hM]; linarith))
    have g0 := roundTo_nonneg P .floor q0
    have g1 := (roundTo_floor_lt P (value x / value p.total)).1
    rw [← e1] at g0 g1
    obtain ⟨a, k2, -⟩ := (C01_cadd_exact p.acc q).1 (representable_add_le (by linarith) (by linarith))
    exact ⟨_, by simp only [farm]; rw [k1, ok_bind, k2]; rfl⟩
  · simp only [farm]
    rw [(C10_rdiv_zero_iff hv x p.total .floor).2 h]
    rfl
  · obtain ⟨u1, u2⟩ := hp.2 u (List.mem_of_getElem? hu)
    obtain ⟨d, k1, e1⟩ := (C02_csub_exact p.acc u.2).1 (representable_sub_nonneg ha hu2)
    have p0 := mul_nonneg u1 (sub_nonneg.2 u2)
    obtain ⟨o, k2, -⟩ := (C07_rmul_partial hv u.1 d .floor (by simp)).1
      (representable_within .floor FP.zero FP.max (by rw [hz, e1]; exact p0) (by rw [hM, e1]; exact h1))
    obtain ⟨t, k3, e3⟩ := (C02_csub_exact p.total u.1).1 (representable_sub_nonneg (stakes_nonneg hp) u1)
    have hle : value u.1 ≤ value p.total := by
      rw [hp.1]
      refine List.single_le_sum (fun x hx => ?_) _ (List.mem_map.2 ⟨u, List.mem_of_getElem? hu, rfl⟩)
      obtain ⟨v, hvm, rfl⟩ := List.mem_map.1 hx
      exact (hp.2 v hvm).1
    obtain ⟨t', k4, -⟩ := (C01_cadd_exact t s).1
      (representable_add_le (by rw [e3]; linarith) (by rw [e3]; linarith))
    exact ⟨_, by simp only [farm, hu]; rw [k1, ok_bind, k2, ok_bind, k3, ok_bind, k4]; rfl⟩
  · simp only [farm, h]

example := (C139_returns (cfg := debugCfg) (by decide) farmExample farmExample_sound (by decide +kernel)).1 ⟨1000⟩
  (by decide +kernel) (by decide +kernel) (by decide +kernel)
example := (C139_returns (cfg := debugCfg) (by decide) farmExample farmExample_sound (by decide +kernel)).2.2.1 1 ⟨500⟩
  (⟨400⟩, ⟨0⟩) rfl (by decide +kernel) (by decide +kernel) (by unfold claim; decide +kernel) (by decide +kernel)
example := (C139_returns (cfg := debugCfg) (by decide) (⟨⟨0⟩, ⟨0⟩, [(⟨0⟩, ⟨0⟩)]⟩ : Farm .i64 2)
  (by unfold Sound; decide +kernel) (by decide +kernel)).2.1 ⟨1000⟩ (by decide +kernel)
example := (C139_returns (cfg := debugCfg) (by decide) farmExample farmExample_sound (by decide +kernel)).2.2.2 2 ⟨500⟩ rfl

end Fixnum
