import Verif.Props.Balances
import Verif.Props.Clients

/-! # Property C132: a checked sum that only fails when it must

`cadd` in the order of a list can overflow although the sum is in the range.  Client code: the numbers that
are not negative and the negative ones apart; as long as there are both, a negative one is added if the sum
so far is positive, and one of the others if not. -/

namespace Fixnum

open Res Spec

variable {L : Layout} {P : Nat}

/-- The loop of the client, on `CheckedAdd::cadd`, `/repo/src/lib.rs:379-381`, and the derived `Ord`,
`/repo/src/lib.rs:197`; `fuel` is the number of summands left. -/
def sumLoop : Nat → List (FP L P) → List (FP L P) → FP L P → Res ArithErr (FP L P)
  | 0, _, _, acc => .ok acc
  | _ + 1, [], [], acc => .ok acc
  | fuel + 1, p :: ps, [], acc => do
    let acc ← FP.cadd acc p
    sumLoop fuel ps [] acc
  | fuel + 1, [], n :: ns, acc => do
    let acc ← FP.cadd acc n
    sumLoop fuel [] ns acc
  | fuel + 1, p :: ps, n :: ns, acc =>
    if FP.cmp acc FP.zero = .gt then do
      let acc ← FP.cadd acc n
      sumLoop fuel (p :: ps) ns acc
    else do
      let acc ← FP.cadd acc p
      sumLoop fuel ps (n :: ns) acc

/-- The client: the sum of a list; `Zero::ZERO` and the derived `Ord`, `/repo/src/lib.rs:197`. -/
def balancedSum (xs : List (FP L P)) : Res ArithErr (FP L P) :=
  sumLoop xs.length (xs.filter fun x => FP.cmp x FP.zero ≠ .lt) (xs.filter fun x => FP.cmp x FP.zero = .lt)
    FP.zero

theorem representable_add_of {x y : FP L P} (h1 : minValue L P ≤ value x + value y)
    (h2 : value x + value y ≤ maxValue L P) : Representable L P (value x + value y) := by
  have hp := ten_pow_pos P
  have e : value x + value y = ((x.inner.toInt + y.inner.toInt : Int) : ℚ) / 10 ^ P := by
    unfold value; push_cast; ring
  rw [e] at h1 h2 ⊢
  unfold minValue at h1
  unfold maxValue at h2
  rw [div_le_div_iff_of_pos_right hp] at h1 h2
  rw [representable_iff, fits_iff]
  exact ⟨by exact_mod_cast h1, by exact_mod_cast h2⟩

theorem value_bounds (x : FP L P) : minValue L P ≤ value x ∧ value x ≤ maxValue L P := by
  have hp := ten_pow_pos P
  have h := (fits_iff L _).1 (toInt_fits x.inner)
  unfold minValue maxValue value
  rw [div_le_div_iff_of_pos_right hp, div_le_div_iff_of_pos_right hp]
  exact ⟨by exact_mod_cast h.1, by exact_mod_cast h.2⟩

theorem sum_nonneg' {xs : List (FP L P)} (h : ∀ x ∈ xs, 0 ≤ value x) : 0 ≤ (xs.map value).sum :=
  List.sum_nonneg (by simpa using h)

theorem sum_nonpos' {xs : List (FP L P)} (h : ∀ x ∈ xs, value x < 0) : (xs.map value).sum ≤ 0 := by
  induction xs with
  | nil => simp
  | cons x xs ih =>
    rw [List.map_cons, List.sum_cons]
    have := h x List.mem_cons_self
    have := ih fun y hy => h y (List.mem_cons_of_mem _ hy)
    linarith

theorem sumLoop_spec (fuel : Nat) : ∀ (ps ns : List (FP L P)) (acc : FP L P),
    ps.length + ns.length = fuel → (∀ p ∈ ps, 0 ≤ value p) → (∀ n ∈ ns, value n < 0) →
    (minValue L P ≤ value acc + (ps.map value).sum + (ns.map value).sum →
      value acc + (ps.map value).sum + (ns.map value).sum ≤ maxValue L P →
      ∃ r, sumLoop fuel ps ns acc = .ok r) ∧
    (∀ r, sumLoop fuel ps ns acc = .ok r →
      value r = value acc + (ps.map value).sum + (ns.map value).sum) ∧
    ((∃ r, sumLoop fuel ps ns acc = .ok r) ∨ sumLoop fuel ps ns acc = .err .overflow) := by
  -- adding one summand and going on
  have step : ∀ {acc x : FP L P} {f : FP L P → Res ArithErr (FP L P)} {S : ℚ},
      (∀ acc' : FP L P, value acc' = value acc + value x →
        (minValue L P ≤ S → S ≤ maxValue L P → ∃ r, f acc' = .ok r) ∧
        (∀ r, f acc' = .ok r → value r = S) ∧ ((∃ r, f acc' = .ok r) ∨ f acc' = .err .overflow)) →
      (minValue L P ≤ S → S ≤ maxValue L P →
        minValue L P ≤ value acc + value x ∧ value acc + value x ≤ maxValue L P) →
      (minValue L P ≤ S → S ≤ maxValue L P → ∃ r, (FP.cadd acc x >>= f) = .ok r) ∧
      (∀ r, (FP.cadd acc x >>= f) = .ok r → value r = S) ∧
      ((∃ r, (FP.cadd acc x >>= f) = .ok r) ∨ (FP.cadd acc x >>= f) = .err .overflow) := by
    intro acc x f S hf hr
    have hE := C01_cadd_exact acc x
    by_cases hrep : Representable L P (value acc + value x)
    · obtain ⟨a, a1, a2⟩ := hE.1 hrep
      rw [a1, ok_bind]
      exact hf a a2
    · rw [hE.2 hrep]
      refine ⟨fun s1 s2 => ?_, (fun r h => nomatch h), .inr rfl⟩
      obtain ⟨b1, b2⟩ := hr s1 s2
      exact absurd (representable_add_of b1 b2) hrep
  induction fuel with
  | zero =>
    intro ps ns acc hl _ _
    obtain rfl : ps = [] := List.length_eq_zero_iff.1 (by omega)
    obtain rfl : ns = [] := List.length_eq_zero_iff.1 (by omega)
    refine ⟨fun _ _ => ⟨acc, rfl⟩, fun r h => ?_, .inl ⟨acc, rfl⟩⟩
    cases h
    simp
  | succ fuel ih =>
    intro ps ns acc hl hp hn
    rcases ps with _ | ⟨p, ps⟩ <;> rcases ns with _ | ⟨n, ns⟩
    · simp at hl
    · unfold sumLoop
      refine step (fun a ha => ?_) (fun s1 s2 => ?_)
      · have := ih [] ns a (by simp at hl ⊢; omega) (by simp) fun y hy => hn y (List.mem_cons_of_mem _ hy)
        rw [ha] at this
        simpa only [List.map_cons, List.sum_cons, List.map_nil, List.sum_nil, add_assoc, add_zero,
          zero_add] using this
      · have h1 := hn n List.mem_cons_self
        have h2 := sum_nonpos' fun y hy => hn y (List.mem_cons_of_mem _ hy)
        simp only [List.map_cons, List.sum_cons, List.map_nil, List.sum_nil] at s1 s2
        exact ⟨by linarith, by linarith [(value_bounds acc).2]⟩
    · unfold sumLoop
      refine step (fun a ha => ?_) (fun s1 s2 => ?_)
      · have := ih ps [] a (by simp at hl ⊢; omega) (fun y hy => hp y (List.mem_cons_of_mem _ hy)) (by simp)
        rw [ha] at this
        simpa only [List.map_cons, List.sum_cons, List.map_nil, List.sum_nil, add_assoc, add_zero,
          zero_add] using this
      · have h1 := hp p List.mem_cons_self
        have h2 := sum_nonneg' fun y hy => hp y (List.mem_cons_of_mem _ hy)
        simp only [List.map_cons, List.sum_cons, List.map_nil, List.sum_nil] at s1 s2
        exact ⟨by linarith [(value_bounds acc).1], by linarith⟩
    · unfold sumLoop
      have hz : value (FP.zero : FP L P) = 0 := C52_zero
      split
      · rename_i hc
        rw [C54_cmp, compare_gt_iff_gt, hz] at hc
        refine step (fun a ha => ?_) (fun _ _ => ?_)
        · have := ih (p :: ps) ns a (by simp at hl ⊢; omega) hp
            fun y hy => hn y (List.mem_cons_of_mem _ hy)
          rw [ha] at this
          have e : value acc + ((p :: ps).map value).sum + ((n :: ns).map value).sum =
            value acc + value n + ((p :: ps).map value).sum + (ns.map value).sum := by
            rw [List.map_cons (l := ns), List.sum_cons]; ring
          rw [e]
          exact this
        · have h1 := hn n List.mem_cons_self
          exact ⟨by linarith [(value_bounds n).1], by linarith [(value_bounds acc).2]⟩
      · rename_i hc
        rw [C54_cmp, compare_gt_iff_gt, hz, not_lt] at hc
        refine step (fun a ha => ?_) (fun _ _ => ?_)
        · have := ih ps (n :: ns) a (by simp at hl ⊢; omega)
            (fun y hy => hp y (List.mem_cons_of_mem _ hy)) hn
          rw [ha] at this
          have e : value acc + ((p :: ps).map value).sum + ((n :: ns).map value).sum =
            value acc + value p + (ps.map value).sum + ((n :: ns).map value).sum := by
            rw [List.map_cons (l := ps), List.sum_cons]; ring
          rw [e]
          exact this
        · have h1 := hp p List.mem_cons_self
          exact ⟨by linarith [(value_bounds acc).1], by linarith [(value_bounds p).2]⟩

/-- **C132** exact whenever the sum is in the range, `Overflow` otherwise: no order of the summands, and
nothing on the way, matters. -/
theorem C132_balanced_sum (xs : List (FP L P)) :
    ExactOr .overflow (balancedSum xs) (xs.map value).sum := by
  have hz : value (FP.zero : FP L P) = 0 := C52_zero
  have neg : ∀ x : FP L P, FP.cmp x FP.zero = .lt ↔ value x < 0 := by
    intro x
    rw [C54_cmp, compare_lt_iff_lt, hz]
  set ps := xs.filter fun x => FP.cmp x FP.zero ≠ .lt with hps
  set ns := xs.filter fun x => FP.cmp x FP.zero = .lt with hns
  have hsum : (ps.map value).sum + (ns.map value).sum = (xs.map value).sum ∧
      ps.length + ns.length = xs.length := by
    rw [hps, hns]
    clear_value ps ns
    clear hps hns
    induction xs with
    | nil => simp
    | cons x xs ih =>
      by_cases h : FP.cmp x FP.zero = .lt
      · simp only [List.filter_cons, h, ne_eq, not_true_eq_false, decide_false, decide_true,
          if_true, Bool.false_eq_true, if_false, List.map_cons, List.sum_cons, List.length_cons]
        refine ⟨?_, by have := ih.2; simp only [ne_eq] at this; omega⟩
        have := ih.1
        simp only [ne_eq] at this
        linarith
      · simp only [List.filter_cons, h, ne_eq, not_false_eq_true, decide_false, decide_true,
          if_true, Bool.false_eq_true, if_false, List.map_cons, List.sum_cons, List.length_cons]
        refine ⟨?_, by have := ih.2; simp only [ne_eq] at this; omega⟩
        have := ih.1
        simp only [ne_eq] at this
        linarith
  obtain ⟨k1, k2, k3⟩ := sumLoop_spec xs.length ps ns FP.zero hsum.2
    (by
      intro p hp
      have := (List.mem_filter.1 hp).2
      rw [decide_eq_true_eq, ne_eq, neg, not_lt] at this
      exact this)
    (by
      intro n hn
      have := (List.mem_filter.1 hn).2
      rw [decide_eq_true_eq, neg] at this
      exact this)
  rw [hz, zero_add, hsum.1] at k1 k2
  constructor
  · rintro ⟨r, hr⟩
    have b := value_bounds r
    rw [hr] at b
    obtain ⟨s, hs⟩ := k1 b.1 b.2
    exact ⟨s, hs, k2 s hs⟩
  · intro hr
    refine k3.resolve_left ?_
    rintro ⟨s, hs⟩
    exact hr ⟨s, k2 s hs⟩

/-- MAX + 1 - 2: in order `Overflow`, balanced MAX - 1; and a sum that overflows if the negative numbers
come first. -/
example : total [⟨-2⟩, ⟨1⟩, (⟨32767⟩ : FP .i16 2)] = .err .overflow ∧
    balancedSum [⟨-2⟩, ⟨1⟩, (⟨32767⟩ : FP .i16 2)] = .ok ⟨32766⟩ ∧
    balancedSum [⟨-1⟩, ⟨-32768⟩, (⟨5⟩ : FP .i16 2)] = .ok ⟨-32764⟩ ∧
    balancedSum [⟨2⟩, ⟨-1⟩, (⟨32767⟩ : FP .i16 2)] = .err .overflow := by decide +kernel

end Fixnum
