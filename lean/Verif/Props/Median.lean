import Verif.Props.Monotone
import Verif.Props.Clients

/-! # Property C137: the median

Client code: the list is sorted, and the middle element returned, or the `half_sum` of the middle two. -/

namespace Fixnum

open Res Spec

variable {L : Layout} {P : Nat} {ε : Type}

/-- Insertion into a sorted list, by `Ord`. -/
def insertSorted (x : FP L P) : List (FP L P) → List (FP L P)
  | [] => [x]
  | y :: ys => if FP.cmp x y = .gt then y :: insertSorted x ys else x :: y :: ys

/-- The client's `sort()`.  Equal numbers cannot be told apart, so that the algorithm does not matter. -/
def sortAsc : List (FP L P) → List (FP L P)
  | [] => []
  | x :: xs => insertSorted x (sortAsc xs)

/-- The client: nothing for the empty list, `v[n / 2]` for an odd number of elements,
`half_sum(v[n / 2 - 1], v[n / 2], mode)` for an even number. -/
def median (cfg : Cfg) (mode : RoundMode) (xs : List (FP L P)) : Res ε (Option (FP L P)) :=
  let s := sortAsc xs
  let n := s.length
  if n % 2 = 1 then .ok s[n / 2]?
  else
    match s[n / 2 - 1]?, s[n / 2]? with
    | some a, some b => do
      let r ← FP.halfSum cfg a b mode
      .ok (some r)
    | _, _ => .ok none

/-- `a` is the element number `k` of the list by size, counting from 0: at most `k` elements are smaller, and
more than `k` are not larger. -/
def Spec.IsKth (xs : List (FP L P)) (k : Nat) (a : FP L P) : Prop :=
  a ∈ xs ∧ xs.countP (fun x => value x < value a) ≤ k ∧ k < xs.countP (fun x => value x ≤ value a)

theorem insertSorted_perm (x : FP L P) (ys : List (FP L P)) : (insertSorted x ys).Perm (x :: ys) := by
  induction ys with
  | nil => exact .refl _
  | cons y ys ih =>
    unfold insertSorted
    split
    · exact (ih.cons y).trans (.swap x y ys)
    · exact .refl _

theorem insertSorted_sorted (x : FP L P) (ys : List (FP L P))
    (h : ys.Pairwise fun a b => value a ≤ value b) :
    (insertSorted x ys).Pairwise fun a b => value a ≤ value b := by
  induction ys with
  | nil => simp [insertSorted]
  | cons y ys ih =>
    obtain ⟨h1, h2⟩ := List.pairwise_cons.1 h
    unfold insertSorted
    split
    · rename_i k
      rw [C54_cmp, compare_gt_iff_gt] at k
      refine List.pairwise_cons.2 ⟨fun z hz => ?_, ih h2⟩
      rcases List.mem_cons.1 ((insertSorted_perm x ys).mem_iff.1 hz) with rfl | hz
      · exact k.le
      · exact h1 z hz
    · rename_i k
      rw [C54_cmp, compare_gt_iff_gt, not_lt] at k
      refine List.pairwise_cons.2 ⟨fun z hz => ?_, h⟩
      rcases List.mem_cons.1 hz with rfl | hz
      · exact k
      · exact k.trans (h1 z hz)

theorem sortAsc_perm (xs : List (FP L P)) : (sortAsc xs).Perm xs := by
  induction xs with
  | nil => exact .refl _
  | cons x xs ih => exact (insertSorted_perm x _).trans (ih.cons x)

theorem sortAsc_sorted (xs : List (FP L P)) :
    (sortAsc xs).Pairwise fun a b => value a ≤ value b := by
  induction xs with
  | nil => simp [sortAsc]
  | cons x xs ih => exact insertSorted_sorted x _ ih

theorem sortAsc_kth (xs : List (FP L P)) (k : Nat) (a : FP L P) (h : (sortAsc xs)[k]? = some a) :
    IsKth xs k a := by
  have hs := sortAsc_sorted xs
  have hp := sortAsc_perm xs
  generalize sortAsc xs = s at hs hp h
  obtain ⟨hk, ha⟩ := List.getElem?_eq_some_iff.1 h
  unfold IsKth
  rw [← hp.mem_iff, ← hp.countP_eq, ← hp.countP_eq]
  refine ⟨ha ▸ List.getElem_mem hk, ?_, ?_⟩
  · rw [← List.take_append_drop k s, List.countP_append]
    have e : (s.drop k).countP (fun x => decide (value x < value a)) = 0 := by
      rw [List.countP_eq_zero]
      intro x hx
      obtain ⟨i, hi, rfl⟩ := List.getElem_of_mem hx
      rw [List.getElem_drop]
      simp only [decide_eq_true_eq, not_lt]
      rw [← ha]
      rcases Nat.eq_zero_or_pos i with rfl | hi0
      · simp
      · exact List.pairwise_iff_getElem.1 hs _ _ _ _ (by omega)
    rw [e]
    refine le_trans (Nat.add_le_add_right List.countP_le_length 0) ?_
    simp
  · rw [← List.take_append_drop (k + 1) s, List.countP_append]
    have e : (s.take (k + 1)).countP (fun x => decide (value x ≤ value a)) = (s.take (k + 1)).length := by
      rw [List.countP_eq_length]
      intro x hx
      obtain ⟨i, hi, rfl⟩ := List.getElem_of_mem hx
      rw [List.getElem_take]
      rw [List.length_take] at hi
      simp only [decide_eq_true_eq]
      rw [← ha]
      rcases Nat.lt_or_ge i k with hik | hik
      · exact List.pairwise_iff_getElem.1 hs _ _ _ _ hik
      · have : i = k := by omega
        subst this
        exact le_refl _
    rw [e, List.length_take]
    omega

/-- C137: the median never fails, and there is one unless the list is empty. -/
theorem C137_returns (cfg : Cfg) (mode : RoundMode) (xs : List (FP L P)) :
    ∃ r, (median cfg mode xs : Res ε _) = .ok r ∧ (r = none ↔ xs = []) := by
  have hl := (sortAsc_perm xs).length_eq
  unfold median
  simp only
  split
  · rename_i h
    refine ⟨_, rfl, ?_⟩
    rw [List.getElem?_eq_none_iff, ← List.length_eq_zero_iff]
    omega
  · rename_i h
    split
    · rename_i a b h1 h2
      obtain ⟨r, k, -⟩ := halfSum_value (ε := ε) cfg a b mode
      refine ⟨some r, by rw [k]; rfl, ?_⟩
      simp only [reduceCtorEq, false_iff]
      rintro rfl
      simp [sortAsc] at h1
    · rename_i h1
      refine ⟨none, rfl, ?_⟩
      simp only [true_iff]
      rw [← List.length_eq_zero_iff, ← hl]
      by_contra hc
      have a1 := List.getElem?_eq_getElem (l := sortAsc xs) (i := (sortAsc xs).length / 2 - 1) (by omega)
      have a2 := List.getElem?_eq_getElem (l := sortAsc xs) (i := (sortAsc xs).length / 2) (by omega)
      exact h1 _ _ a1 a2

/-- C137: the median of an odd number of elements is the middle one by size, that of an even number is the
`half_sum` of the middle two. -/
theorem C137_middle (cfg : Cfg) (mode : RoundMode) (xs : List (FP L P)) (r : FP L P)
    (h : (median cfg mode xs : Res ε _) = .ok (some r)) :
    (xs.length % 2 = 1 ∧ IsKth xs (xs.length / 2) r) ∨
    (xs.length % 2 = 0 ∧ ∃ a b, IsKth xs (xs.length / 2 - 1) a ∧ IsKth xs (xs.length / 2) b ∧
      value a ≤ value r ∧ value r ≤ value b ∧ (FP.halfSum cfg a b mode : Res ε _) = .ok r) := by
  unfold median at h
  simp only at h
  rw [(sortAsc_perm xs).length_eq] at h
  split at h
  · rename_i h0
    injection h with h
    exact .inl ⟨h0, sortAsc_kth xs _ _ h⟩
  · rename_i h0
    split at h
    · rename_i a b h1 h2
      obtain ⟨q, k, h⟩ := bind_ok_of h
      cases h
      refine .inr ⟨by omega, a, b, sortAsc_kth xs _ _ h1, sortAsc_kth xs _ _ h2, ?_⟩
      have hab : value a ≤ value b := by
        obtain ⟨i1, rfl⟩ := List.getElem?_eq_some_iff.1 h1
        obtain ⟨i2, rfl⟩ := List.getElem?_eq_some_iff.1 h2
        have := (sortAsc_perm xs).length_eq
        exact List.pairwise_iff_getElem.1 (sortAsc_sorted xs) _ _ _ _ (by omega)
      obtain ⟨b1, b2⟩ := C16_half_sum_between cfg a b r mode k
      rw [min_eq_left hab] at b1
      rw [max_eq_right hab] at b2
      exact ⟨b1, b2, k⟩
    · cases h

example : (median debugCfg .floor ([⟨700⟩, ⟨100⟩, ⟨550⟩, ⟨101⟩] : List (FP .i64 2)) : Res Unit _) =
    .ok (some ⟨325⟩) ∧
    (median debugCfg .ceil ([⟨700⟩, ⟨-100⟩, ⟨550⟩] : List (FP .i64 2)) : Res Unit _) = .ok (some ⟨550⟩) := by
  decide +kernel
example := C137_returns (ε := Unit) debugCfg .nearest ([⟨700⟩, ⟨-100⟩, ⟨550⟩] : List (FP .i64 2))
example := C137_middle (ε := Unit) debugCfg .floor ([⟨700⟩, ⟨100⟩, ⟨550⟩, ⟨101⟩] : List (FP .i64 2)) ⟨325⟩
  (by decide +kernel)

/-- C137: no more than half of the elements are smaller than the median, and no more than half larger. -/
theorem C137_half (cfg : Cfg) (mode : RoundMode) (xs : List (FP L P)) (r : FP L P)
    (h : (median cfg mode xs : Res ε _) = .ok (some r)) :
    2 * xs.countP (fun x => value x < value r) ≤ xs.length ∧
    2 * xs.countP (fun x => value r < value x) ≤ xs.length := by
  have split : ∀ c : FP L P, xs.length =
      xs.countP (fun x => value x ≤ value c) + xs.countP (fun x => value c < value x) := by
    intro c
    rw [List.length_eq_countP_add_countP (fun x => decide (value x ≤ value c))]
    congr 2
    funext x
    simp
  rcases C137_middle cfg mode xs r h with ⟨h0, -, h1, h2⟩ | ⟨h0, a, b, ⟨-, -, h1⟩, ⟨-, h2, -⟩, k1, k2, -⟩
  · have := split r
    omega
  · have m1 : xs.countP (fun x => value x < value r) ≤ xs.countP (fun x => value x < value b) :=
      List.countP_mono_left fun x _ hx => by simp only [decide_eq_true_eq] at hx ⊢; linarith
    have m2 : xs.countP (fun x => value r < value x) ≤ xs.countP (fun x => value a < value x) :=
      List.countP_mono_left fun x _ hx => by simp only [decide_eq_true_eq] at hx ⊢; linarith
    have := split a
    omega

example := C137_half (ε := Unit) debugCfg .floor ([⟨700⟩, ⟨100⟩, ⟨550⟩, ⟨101⟩] : List (FP .i64 2)) ⟨325⟩
  (by decide +kernel)

/-- C137: if more than half of the elements are between `lo` and `hi`, so is the median, whatever the others
are. -/
theorem C137_majority (cfg : Cfg) (mode : RoundMode) (xs : List (FP L P)) (r : FP L P) (lo hi : ℚ)
    (hm : xs.length < 2 * xs.countP (fun x => lo ≤ value x ∧ value x ≤ hi))
    (h : (median cfg mode xs : Res ε _) = .ok (some r)) : lo ≤ value r ∧ value r ≤ hi := by
  obtain ⟨h1, h2⟩ := C137_half cfg mode xs r h
  constructor
  · by_contra hc
    have : xs.countP (fun x => lo ≤ value x ∧ value x ≤ hi) ≤ xs.countP (fun x => value r < value x) :=
      List.countP_mono_left fun x _ hx => by simp only [decide_eq_true_eq] at hx ⊢; linarith [hx.1]
    omega
  · by_contra hc
    have : xs.countP (fun x => lo ≤ value x ∧ value x ≤ hi) ≤ xs.countP (fun x => value x < value r) :=
      List.countP_mono_left fun x _ hx => by simp only [decide_eq_true_eq] at hx ⊢; linarith [hx.2]
    omega

-- two of three reports are between 1.00 and 1.02
example := C137_majority (ε := Unit) debugCfg .nearest ([⟨101⟩, FP.max, ⟨102⟩] : List (FP .i64 2)) ⟨102⟩ 1 (102 / 100)
  (by decide +kernel) (by decide +kernel)

theorem IsKth.le {xs ys : List (FP L P)} {k : Nat} {a b : FP L P} (ha : IsKth xs k a) (hb : IsKth ys k b)
    (h : ∀ c : ℚ, ys.countP (fun x => value x ≤ c) ≤ xs.countP (fun x => value x ≤ c)) :
    value a ≤ value b := by
  by_contra hc
  have h1 : xs.countP (fun x => value x ≤ value b) ≤ xs.countP (fun x => value x < value a) :=
    List.countP_mono_left fun x _ hx => by simp only [decide_eq_true_eq] at hx ⊢; linarith
  have := h (value b)
  have := ha.2.1
  have := hb.2.2
  omega

theorem median_le (cfg : Cfg) (mode : RoundMode) {xs ys : List (FP L P)} {r q : FP L P}
    (hl : xs.length = ys.length)
    (hc : ∀ c : ℚ, ys.countP (fun x => value x ≤ c) ≤ xs.countP (fun x => value x ≤ c))
    (h : (median cfg mode xs : Res ε _) = .ok (some r))
    (h' : (median cfg mode ys : Res ε _) = .ok (some q)) : value r ≤ value q := by
  rcases C137_middle cfg mode xs r h with ⟨h0, h1⟩ | ⟨h0, a, b, h1, h2, -, -, h3⟩ <;>
    rcases C137_middle cfg mode ys q h' with ⟨h0', h1'⟩ | ⟨h0', a', b', h1', h2', -, -, h3'⟩
  · exact IsKth.le h1 (hl ▸ h1') hc
  · omega
  · omega
  · exact C114_half_sum cfg a b a' b' r q mode (IsKth.le h1 (hl ▸ h1') hc) (IsKth.le h2 (hl ▸ h2') hc) h3 h3'

/-- C137: the order of the elements does not matter. -/
theorem C137_order (cfg : Cfg) (mode : RoundMode) (xs ys : List (FP L P)) (h : xs.Perm ys) :
    (median cfg mode xs : Res ε _) = median cfg mode ys := by
  obtain ⟨r, h1, k1⟩ := C137_returns (ε := ε) cfg mode xs
  obtain ⟨q, h2, k2⟩ := C137_returns (ε := ε) cfg mode ys
  rw [h1, h2]
  have hn : r = none ↔ q = none := by
    rw [k1, k2, ← List.length_eq_zero_iff, ← List.length_eq_zero_iff, h.length_eq]
  cases r with
  | none => rw [hn.1 rfl]
  | some r =>
    cases q with
    | none => exact absurd (hn.2 rfl) (by simp)
    | some q =>
      rw [value_inj (le_antisymm
        (median_le (ε := ε) cfg mode h.length_eq (fun c => (h.countP_eq _).ge) h1 h2)
        (median_le (ε := ε) cfg mode h.length_eq.symm (fun c => (h.countP_eq _).le) h2 h1))]

example := C137_order (ε := Unit) debugCfg .floor ([⟨700⟩, ⟨100⟩, ⟨550⟩] : List (FP .i64 2)) [⟨100⟩, ⟨700⟩, ⟨550⟩]
  (.swap _ _ _)

/-- C137: if no element decreases, the median does not decrease. -/
theorem C137_mono (cfg : Cfg) (mode : RoundMode) (xs ys : List (FP L P)) (r q : FP L P)
    (hxy : List.Forall₂ (fun x y => value x ≤ value y) xs ys)
    (h : (median cfg mode xs : Res ε _) = .ok (some r))
    (h' : (median cfg mode ys : Res ε _) = .ok (some q)) : value r ≤ value q := by
  refine median_le cfg mode hxy.length_eq (fun c => ?_) h h'
  clear h h'
  induction hxy with
  | nil => exact le_refl _
  | @cons x y xs ys k _ ih =>
    rw [List.countP_cons, List.countP_cons]
    refine Nat.add_le_add ih ?_
    by_cases hy : value y ≤ c
    · simp [hy, k.trans hy]
    · simp [hy]

example := C137_mono (ε := Unit) debugCfg .floor ([⟨700⟩, ⟨100⟩, ⟨550⟩, ⟨101⟩] : List (FP .i64 2))
  [⟨700⟩, ⟨100⟩, ⟨551⟩, ⟨102⟩] ⟨325⟩ ⟨326⟩
  (by simp only [List.forall₂_cons, List.forall₂_nil_left_iff]; decide +kernel)
  (by decide +kernel) (by decide +kernel)

end Fixnum
