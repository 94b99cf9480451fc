import Verif.Props.Panics
import Verif.Props.Profile
import Verif.Props.Layouts

/-!
# C100: programs with branches, loops and error handling

Client programs over registers holding numbers of one type: every operation that yields a number,
`?` on errors, `match` on errors, comparison, `while`.  (The programs are not part of the crate; the
operations they call are.)  Such a program cannot tell one build profile from another except by a
panic, and one layout from a wider one except by an error or a panic.
-/

namespace Fixnum

open Res Spec

variable {L L' : Layout} {P : Nat} {ε : Type}

/-- An operation on registers.  An integer operand is a constant of the program. -/
inductive Op where
  | lit (z : Int)
  | add (i j : Nat)
  | sub (i j : Nat)
  | neg (i : Nat)
  | abs (i : Nat)
  | mulInt (i : Nat) (n : Int)
  | mul (i j : Nat) (m : RoundMode)
  | div (i j : Nat) (m : RoundMode)
  | divInt (i : Nat) (n : Int) (m : RoundMode)
  | recip (i : Nat) (m : RoundMode)
  | half (i j : Nat) (m : RoundMode)
  | sqrt (i : Nat) (m : RoundMode)
  | nextPower (i : Nat)
  | truncTo (i j : Nat)
  | floor (i : Nat)
  | ceil (i : Nat)
  | round (i : Nat)
  | satAdd (i j : Nat)
  | satSub (i j : Nat)
  | satMul (i j : Nat) (m : RoundMode)

/-- Registers. -/
abbrev Regs (L : Layout) (P : Nat) := Nat → FP L P

/-- The operation as the crate performs it (`lit` is a literal with `z` for its bits). -/
def Op.run (cfg : Cfg) (s : Regs L P) : Op → Res ArithErr (FP L P)
  | .lit z => .ok ⟨BitVec.ofInt L.bits z⟩
  | .add i j => FP.cadd (s i) (s j)
  | .sub i j => FP.csub (s i) (s j)
  | .neg i => FP.cneg (s i)
  | .abs i => FP.abs (s i)
  | .mulInt i n => FP.cmul (s i) (BitVec.ofInt L.bits n)
  | .mul i j m => FP.rmul cfg (s i) (s j) m
  | .div i j m => FP.rdiv cfg (s i) (s j) m
  | .divInt i n m => FP.rdivInt cfg (s i) (BitVec.ofInt L.bits n) m
  | .recip i m => FP.recip cfg (s i) m
  | .half i j m => FP.halfSum cfg (s i) (s j) m
  | .sqrt i m => FP.rsqrt cfg (s i) m
  | .nextPower i => FP.nextPowerOfTen (s i)
  | .truncTo i j => .ok (FP.roundTowardsZeroBy (s i) (s j))
  | .floor i => FP.floor cfg (s i)
  | .ceil i => FP.ceil cfg (s i)
  | .round i => FP.round cfg (s i)
  | .satAdd i j => .ok (FP.saturatingAdd (s i) (s j))
  | .satSub i j => .ok (FP.saturatingSub (s i) (s j))
  | .satMul i j m => FP.saturatingRmul cfg (s i) (s j) m

/-- A program. -/
inductive Cmd where
  | skip
  /-- `r[d] = op?` -/
  | set (d : Nat) (op : Op)
  /-- `match op { Ok(x) => { r[d] = x; c } Err(_) => e }` -/
  | attempt (d : Nat) (op : Op) (c e : Cmd)
  | seq (c e : Cmd)
  /-- `if r[i] < r[j] { c } else { e }` -/
  | cond (i j : Nat) (c e : Cmd)
  /-- `while r[i] < r[j] { c }` -/
  | loop (i j : Nat) (c : Cmd)

/-- Assignment. -/
def Regs.put (s : Regs L P) (d : Nat) (x : FP L P) : Regs L P := fun k => if k = d then x else s k

/-- Execution for at most `fuel` nested steps; running out of fuel is `diverge`. -/
def Cmd.run (cfg : Cfg) : Nat → Cmd → Regs L P → Res ArithErr (Regs L P)
  | 0, _, _ => .fault .diverge
  | _ + 1, .skip, s => .ok s
  | _ + 1, .set d op, s => do
    let x ← op.run cfg s
    .ok (s.put d x)
  | fuel + 1, .attempt d op c e, s =>
    match op.run cfg s with
    | .ok x => run cfg fuel c (s.put d x)
    | .err _ => run cfg fuel e s
    | .fault k => .fault k
  | fuel + 1, .seq c e, s => do
    let s ← run cfg fuel c s
    run cfg fuel e s
  | fuel + 1, .cond i j c e, s =>
    if FP.cmp (s i) (s j) = .lt then run cfg fuel c s else run cfg fuel e s
  | fuel + 1, .loop i j c, s =>
    if FP.cmp (s i) (s j) = .lt then do
      let s ← run cfg fuel c s
      run cfg fuel (.loop i j c) s
    else .ok s

/-- The program ends with outcome `r` (a final state, an error, a panic). -/
def Cmd.Ends (cfg : Cfg) (c : Cmd) (s : Regs L P) (r : Res ArithErr (Regs L P)) : Prop :=
  r ≠ .fault .diverge ∧ ∃ fuel, c.run cfg fuel s = r

/-- The content of a register at the end. -/
def final (r : Res ArithErr (Regs L P)) (i : Nat) : Res ArithErr Int := do
  let s ← r
  .ok (s i).inner.toInt

/-- Interest by the month for a year: register 0 is the balance, 1 the month, 2 the rate; the square
root of the last balance goes to register 6. -/
def interest : Cmd :=
  .seq (.set 3 (.lit 12000000000)) <| .seq (.set 4 (.lit 1000000000)) <|
  .seq (.loop 1 3 (.seq (.set 5 (.mul 0 2 .floor)) (.seq (.set 0 (.add 0 5)) (.set 1 (.add 1 4))))) <|
  .attempt 6 (.sqrt 0 .nearest) .skip (.set 6 (.lit 0))

/-- The registers at the start: 1000, month 0, one per cent. -/
def interestStart : Regs L P := fun i =>
  if i = 0 then ⟨BitVec.ofInt _ 1000000000000⟩ else if i = 2 then ⟨BitVec.ofInt _ 10000000⟩ else ⟨0⟩

/-- The program ends, in either profile and layout. -/
theorem interest_ends : interest.Ends debugCfg (interestStart : Regs .i64 9)
    (interest.run debugCfg 40 interestStart) :=
  ⟨(by
    intro h
    have e : final (interest.run debugCfg 40 (interestStart : Regs .i64 9)) 0 = .ok 1126825030130 := by
      decide +kernel
    rw [h] at e
    cases e), 40, rfl⟩

/-! ## Build profiles -/

theorem refines_op (cfg : Cfg) (op : Op) (s : Regs L P) :
    Refines (op.run cfg s) (op.run (rel cfg) s) := by
  cases op with
  | mul i j m => exact FP.refines_rmul cfg _ _ m
  | div i j m => exact FP.refines_rdiv cfg _ _ m
  | divInt i n m => exact FP.refines_rdivInt cfg _ _ m
  | recip i m => exact FP.refines_recip cfg _ m
  | half i j m => exact FP.refines_halfSum cfg _ _ m
  | sqrt i m => exact FP.refines_rsqrt cfg _ m
  | floor i => exact FP.refines_floor cfg _
  | ceil i => exact FP.refines_ceil cfg _
  | round i => exact FP.refines_round cfg _
  | satMul i j m => exact FP.refines_saturatingRmul cfg _ _ m
  | _ => exact Refines.refl _

theorem refines_cmd (cfg : Cfg) : ∀ (fuel : Nat) (c : Cmd) (s : Regs L P),
    Refines (c.run cfg fuel s) (c.run (rel cfg) fuel s)
  | 0, c, s => by unfold Cmd.run; exact Refines.refl _
  | fuel + 1, c, s => by
    have ih := refines_cmd cfg fuel
    cases c with
    | skip => exact Refines.refl _
    | set d op => exact Refines.bind (refines_op cfg op s) fun _ => Refines.refl _
    | attempt d op c e =>
      unfold Cmd.run
      rcases refines_op cfg op s with h | h
      · rw [h]; exact Refines.panic _
      · rw [h]
        cases op.run (rel cfg) s with
        | ok x => exact ih c _
        | err _ => exact ih e s
        | fault k => exact Refines.refl _
    | seq c e => exact Refines.bind (ih c s) fun s => ih e s
    | cond i j c e =>
      unfold Cmd.run
      exact Refines.ite (fun _ => ih c s) (fun _ => ih e s)
    | loop i j c =>
      unfold Cmd.run
      exact Refines.ite (fun _ => Refines.bind (ih c s) fun s => ih _ s) (fun _ => Refines.refl _)

/-- C100: a program is independent of the build profile, as the single operations are (C39): two
builds that do not panic agree, and overflow checks and debug assertions can only turn an outcome
into a panic. -/
theorem C100_profile (fuel : Nat) (c : Cmd) (s : Regs L P) :
    ProfileIndependent fun cfg => c.run cfg fuel s :=
  profileIndependent_of fun cfg => refines_cmd cfg fuel c s

example := C100_profile (L := .i64) (P := 9) 40 (.set 0 (.add 1 2)) fun _ => ⟨5⟩

/-! ## Fuel -/

theorem run_more {cfg : Cfg} : ∀ (fuel : Nat) (c : Cmd) (s : Regs L P),
    c.run cfg fuel s ≠ .fault .diverge → c.run cfg (fuel + 1) s = c.run cfg fuel s
  | 0, c, s => by intro h; exact absurd (by unfold Cmd.run; rfl) h
  | fuel + 1, c, s => by
    have ih := run_more (cfg := cfg) fuel
    intro h
    cases c with
    | skip => rfl
    | set d op => rfl
    | attempt d op c e =>
      unfold Cmd.run at h ⊢
      cases ho : op.run cfg s with
      | ok x => simp only [ho] at h ⊢; exact ih c _ h
      | err _ => simp only [ho] at h ⊢; exact ih e s h
      | fault k => rfl
    | seq c e =>
      unfold Cmd.run at h ⊢
      have h1 : c.run cfg fuel s ≠ .fault .diverge := by
        intro hc; rw [hc] at h; exact h rfl
      rw [ih c s h1]
      cases hc : c.run cfg fuel s with
      | ok s1 => rw [hc] at h; exact ih e s1 h
      | err _ => rfl
      | fault k => rfl
    | cond i j c e =>
      unfold Cmd.run at h ⊢
      split at h
      · rw [if_pos ‹_›, if_pos ‹_›]; exact ih c s h
      · rw [if_neg ‹_›, if_neg ‹_›]; exact ih e s h
    | loop i j c =>
      unfold Cmd.run at h ⊢
      split at h
      · rw [if_pos ‹_›, if_pos ‹_›]
        have h1 : c.run cfg fuel s ≠ .fault .diverge := by
          intro hc; rw [hc] at h; exact h rfl
        rw [ih c s h1]
        cases hc : c.run cfg fuel s with
        | ok s1 => rw [hc] at h; exact ih _ s1 h
        | err _ => rfl
        | fault k => rfl
      · rw [if_neg ‹_›, if_neg ‹_›]

theorem run_mono {cfg : Cfg} {fuel fuel' : Nat} (hf : fuel ≤ fuel') {c : Cmd} {s : Regs L P}
    (h : c.run cfg fuel s ≠ .fault .diverge) : c.run cfg fuel' s = c.run cfg fuel s := by
  induction hf with
  | refl => rfl
  | @step m _ ih => rw [run_more m c s (by rw [ih]; exact h), ih]

/-- C100: the outcome of a program is unique. -/
theorem C100_deterministic {cfg : Cfg} {c : Cmd} {s : Regs L P} {r r' : Res ArithErr (Regs L P)}
    (h : c.Ends cfg s r) (h' : c.Ends cfg s r') : r = r' := by
  obtain ⟨h1, f, hf⟩ := h
  obtain ⟨h2, f', hf'⟩ := h'
  rcases le_total f f' with hl | hl
  · rw [← hf', run_mono hl (by rw [hf]; exact h1), hf]
  · rw [← hf, run_mono hl (by rw [hf']; exact h2), hf']

example := C100_deterministic interest_ends interest_ends

/-- C100: what ends without a panic in a build ends in the same way in every build of the same
features, or panics there; never otherwise in a release build. -/
theorem C100_ends {cfg cfg' : Cfg} (hs : SameFeatures cfg cfg') {c : Cmd} {s : Regs L P}
    {r : Res ArithErr (Regs L P)} (hr : r ≠ .panic) (h : c.Ends cfg s r) :
    (c.Ends cfg' s r ∨ c.Ends cfg' s .panic) ∧
    (cfg'.overflowChecks = false → cfg'.debugAssertions = false → c.Ends cfg' s r) := by
  obtain ⟨h1, f, hf⟩ := h
  obtain ⟨p1, p2⟩ := C100_profile f c s
  refine ⟨?_, ?_⟩
  · by_cases hp : c.run cfg' f s = .panic
    · exact .inr ⟨by simp [Res.panic], f, hp⟩
    · exact .inl ⟨h1, f, by rw [← hf]; exact (p1 cfg cfg' hs (fun hh => hr (hf.symm.trans hh)) hp).symm⟩
  · intro ho hd
    rcases p2 cfg cfg' hs ho hd with h | h
    · exact absurd (hf.symm.trans h) hr
    · exact ⟨h1, f, by rw [← hf]; exact h.symm⟩

example := C100_ends (cfg := debugCfg) (cfg' := releaseCfg) ⟨rfl, rfl⟩
  (r := interest.run debugCfg 40 (interestStart : Regs .i64 9)) (by
    intro h
    have e : final (interest.run debugCfg 40 (interestStart : Regs .i64 9)) 0 = .ok 1126825030130 := by
      decide +kernel
    rw [h] at e
    cases e) interest_ends

/-! ## Programs that never panic -/

/-- Operations that panic in no build: no `Nearest` quotient (nor product on `FixedPoint<i128, U38>`),
no division by the integer `-1`, no `floor`, `ceil`, `round`. -/
def Op.Safe (L : Layout) (P : Nat) : Op → Prop
  | .mul _ _ m => m = .nearest → ¬ (L = .i128 ∧ P = 38)
  | .div _ _ m => m ≠ .nearest
  | .divInt _ n m => m ≠ .nearest ∧ Fits L.bits n ∧ n ≠ -1
  | .recip _ m => m ≠ .nearest
  | .satMul _ _ m => m = .nearest → ¬ (L = .i128 ∧ P = 38)
  | .floor _ => False
  | .ceil _ => False
  | .round _ => False
  | _ => True

/-- Programs of such operations. -/
def Cmd.Safe (L : Layout) (P : Nat) : Cmd → Prop
  | .skip => True
  | .set _ op => op.Safe L P
  | .attempt _ op c e => op.Safe L P ∧ c.Safe L P ∧ e.Safe L P
  | .seq c e => c.Safe L P ∧ e.Safe L P
  | .cond _ _ c e => c.Safe L P ∧ e.Safe L P
  | .loop _ _ c => c.Safe L P

theorem safe_of_exact {e : ε} {r s : Res ε (FP L P)} {q : ℚ} (h1 : ExactOr e r q)
    (h2 : ExactOr e s q) : r = s ∧ r.Returns := ⟨h1.unique h2, h1.returns⟩

theorem safe_of_ok {r s : Res ε (FP L P)} {x y : FP L P} (h1 : r = .ok x) (h2 : s = .ok y)
    (h : value x = value y) : r = s ∧ r.Returns := by
  rw [h1, h2, value_inj h]; exact ⟨rfl, trivial⟩

theorem safe_of_err {r s : Res ε (FP L P)} {e : ε} (h1 : r = .err e) (h2 : s = .err e) :
    r = s ∧ r.Returns := by
  rw [h1, h2]; exact ⟨rfl, trivial⟩

theorem op_safe {cfg cfg' : Cfg} (hv : Valid cfg L P) (hv' : Valid cfg' L P) {op : Op}
    (hs : op.Safe L P) (s : Regs L P) :
    op.run cfg s = op.run cfg' s ∧ (op.run cfg s).Returns := by
  cases op with
  | lit z => exact ⟨rfl, trivial⟩
  | add i j => exact safe_of_exact (C01_cadd_exact _ _) (C01_cadd_exact _ _)
  | sub i j => exact safe_of_exact (C02_csub_exact _ _) (C02_csub_exact _ _)
  | neg i => exact safe_of_exact (C04_cneg_exact _) (C04_cneg_exact _)
  | abs i => exact safe_of_exact (C04_abs_exact _) (C04_abs_exact _)
  | mulInt i n => exact safe_of_exact (C03_cmul_exact _ _) (C03_cmul_exact _ _)
  | mul i j m => exact safe_of_exact (C07_rmul_partial hv _ _ m hs) (C07_rmul_partial hv' _ _ m hs)
  | div i j m =>
    by_cases hb : value (s j) = 0
    · exact safe_of_err ((C10_rdiv_zero_iff hv _ _ m).2 hb) ((C10_rdiv_zero_iff hv' _ _ m).2 hb)
    · exact safe_of_exact (C10_rdiv_directed hv _ _ m hs hb) (C10_rdiv_directed hv' _ _ m hs hb)
  | divInt i n m =>
    obtain ⟨h1, h2, h3⟩ := hs
    have e := toInt_ofInt_of_fits (by cases L <;> simp [Layout.bits]) h2
    by_cases hb : n = 0
    · exact safe_of_err ((C12_rdivInt_zero_iff cfg _ _ m).2 (by rw [e, hb]))
        ((C12_rdivInt_zero_iff cfg' _ _ m).2 (by rw [e, hb]))
    · have g : ∀ c : Cfg, _ := fun c => C12_rdivInt_partial c (s i) (BitVec.ofInt L.bits n) m
        (by rw [e]; exact hb) (by rw [e]; exact fun h => h3 h.2) fun h => absurd h h1
      exact safe_of_exact (g cfg) (g cfg')
  | recip i m =>
    by_cases hb : value (s i) = 0
    · exact safe_of_err ((C15_recip_zero_iff hv _ m).2 hb) ((C15_recip_zero_iff hv' _ m).2 hb)
    · exact safe_of_exact (C15_recip_directed hv _ m hs hb) (C15_recip_directed hv' _ m hs hb)
  | half i j m =>
    obtain ⟨x, hx, ex⟩ := halfSum_value (ε := ArithErr) cfg (s i) (s j) m
    obtain ⟨y, hy, ey⟩ := halfSum_value (ε := ArithErr) cfg' (s i) (s j) m
    exact safe_of_ok hx hy (ex.trans ey.symm)
  | sqrt i m =>
    have h := C23_rsqrt_std_independent hv hv' (s i) m
    refine ⟨h, ?_⟩
    show (FP.rsqrt cfg (s i) m).Returns
    have := C98_returns hv (.rsqrt (s i) m) (fun h => h) (fun h => h)
    cases hr : FP.rsqrt cfg (s i) m with
    | fault k => rw [Call.fate, hr] at this; cases this
    | _ => trivial
  | nextPower i =>
    refine ⟨rfl, ?_⟩
    show (FP.nextPowerOfTen (s i)).Returns
    have := C98_returns hv (.nextPowerOfTen (s i)) (fun h => h) (fun h => h)
    cases hr : FP.nextPowerOfTen (s i) with
    | fault k => rw [Call.fate, hr] at this; cases this
    | _ => trivial
  | truncTo i j => exact ⟨rfl, trivial⟩
  | floor i => exact hs.elim
  | ceil i => exact hs.elim
  | round i => exact hs.elim
  | satAdd i j => exact ⟨rfl, trivial⟩
  | satSub i j => exact ⟨rfl, trivial⟩
  | satMul i j m =>
    obtain ⟨x, hx, ex⟩ := C09_saturating_rmul_types_partial (ε := ArithErr) hv (s i) (s j) m hs
    obtain ⟨y, hy, ey⟩ := C09_saturating_rmul_types_partial (ε := ArithErr) hv' (s i) (s j) m hs
    exact safe_of_ok hx hy (ex.trans ey.symm)

/-- Anything but a panic or undefined behaviour (running out of fuel is allowed). -/
def Orderly {α : Type} : Res ε α → Prop
  | .fault k => k = .diverge
  | _ => True

theorem orderly_of_returns {α : Type} {r : Res ε α} (h : r.Returns) : Orderly r := by
  cases r with
  | fault k => exact h.elim
  | _ => trivial

theorem orderly_bind {α β : Type} {r : Res ε α} {f : α → Res ε β} (h : Orderly r)
    (hf : ∀ a, Orderly (f a)) : Orderly (r >>= f) := by
  cases r with
  | ok a => exact hf a
  | err e => trivial
  | fault k => exact h

theorem cmd_safe {cfg cfg' : Cfg} (hv : Valid cfg L P) (hv' : Valid cfg' L P) :
    ∀ (fuel : Nat) (c : Cmd) (_ : c.Safe L P) (s : Regs L P),
      c.run cfg fuel s = c.run cfg' fuel s ∧ Orderly (c.run cfg fuel s)
  | 0, c, _, s => by unfold Cmd.run; exact ⟨rfl, rfl⟩
  | fuel + 1, c, hs, s => by
    have ih := cmd_safe hv hv' fuel
    cases c with
    | skip => exact ⟨rfl, trivial⟩
    | set d op =>
      obtain ⟨h1, h2⟩ := op_safe hv hv' hs s
      unfold Cmd.run
      refine ⟨by rw [h1], orderly_bind (orderly_of_returns h2) fun _ => trivial⟩
    | attempt d op c e =>
      obtain ⟨h1, h2⟩ := op_safe hv hv' hs.1 s
      unfold Cmd.run
      rw [← h1]
      cases ho : op.run cfg s with
      | ok x => exact ih c hs.2.1 _
      | err _ => exact ih e hs.2.2 s
      | fault k => rw [ho] at h2; exact h2.elim
    | seq c e =>
      unfold Cmd.run
      refine ⟨?_, orderly_bind (ih c hs.1 s).2 fun s => (ih e hs.2 s).2⟩
      rw [(ih c hs.1 s).1]
      exact congrArg _ (funext fun s => (ih e hs.2 s).1)
    | cond i j c e =>
      unfold Cmd.run
      split
      · exact ih c hs.1 s
      · exact ih e hs.2 s
    | loop i j c =>
      unfold Cmd.run
      split
      · refine ⟨?_, orderly_bind (ih c hs s).2 fun s => (ih (.loop i j c) hs s).2⟩
        rw [(ih c hs s).1]
        exact congrArg _ (funext fun s => (ih (.loop i j c) hs s).1)
      · exact ⟨rfl, trivial⟩

/-- C100: a program of operations that do not panic (see `Op.Safe`) has the same outcome in any two
builds that have the type, whatever their features, and it is not a panic. -/
theorem C100_safe {cfg cfg' : Cfg} (hv : Valid cfg L P) (hv' : Valid cfg' L P) {c : Cmd}
    (hs : c.Safe L P) {s : Regs L P} {r : Res ArithErr (Regs L P)} (h : c.Ends cfg s r) :
    c.Ends cfg' s r ∧ r.Returns := by
  obtain ⟨h1, f, hf⟩ := h
  obtain ⟨e, o⟩ := cmd_safe hv hv' f c hs s
  refine ⟨⟨h1, f, by rw [← e]; exact hf⟩, ?_⟩
  rw [hf] at o
  cases r with
  | fault k => exact absurd (congrArg Res.fault o) h1
  | _ => trivial

example := C100_safe (cfg' := releaseCfg) (by decide) (by decide)
  (by simp [interest, Cmd.Safe, Op.Safe]) interest_ends

/-! ## Layouts -/

/-- Constants of the program fit into the layout; no saturating operation. -/
def Op.Plain (L : Layout) : Op → Prop
  | .lit z => Fits L.bits z
  | .mulInt _ n => Fits L.bits n
  | .divInt _ n _ => Fits L.bits n
  | .satAdd _ _ => False
  | .satSub _ _ => False
  | .satMul _ _ _ => False
  | _ => True

/-- Operations whose errors do not come from the range of the type. -/
def Op.Rangeless : Op → Prop
  | .sqrt _ _ => True
  | .half _ _ _ => True
  | .truncTo _ _ => True
  | .lit _ => True
  | _ => False

/-- Programs that do not recover from errors that come from the range of the type. -/
def Cmd.Plain (L : Layout) : Cmd → Prop
  | .skip => True
  | .set _ op => op.Plain L
  | .attempt _ op c e => op.Plain L ∧ op.Rangeless ∧ c.Plain L ∧ e.Plain L
  | .seq c e => c.Plain L ∧ e.Plain L
  | .cond _ _ c e => c.Plain L ∧ e.Plain L
  | .loop _ _ c => c.Plain L

/-- The registers hold the same numbers. -/
def Regs.Same (s : Regs L P) (s' : Regs L' P) : Prop := ∀ i, value (s' i) = value (s i)

theorem op_widens {cfg cfg' : Cfg} (h : L.bits < L'.bits) (hv : Valid cfg L P)
    (hv' : Valid cfg' L' P) (hc : cfg.overflowChecks = true) {op : Op} (hp : op.Plain L)
    {s : Regs L P} {s' : Regs L' P} (hs : s.Same s') (x : FP L P) (hx : op.run cfg s = .ok x) :
    ∃ y, op.run cfg' s' = .ok y ∧ value y = value x := by
  have hw : 0 < L.bits := by cases L <;> simp [Layout.bits]
  have hw' : 0 < L'.bits := by cases L' <;> simp [Layout.bits]
  have hn : ∀ n : Int, Fits L.bits n →
      (BitVec.ofInt L'.bits n).toInt = (BitVec.ofInt L.bits n).toInt := fun n hn => by
    rw [toInt_ofInt_of_fits hw hn, toInt_ofInt_of_fits hw' (fits_widen h hn)]
  have hmin : ∀ (a : FP L P), value a = minValue L P → ∀ y : FP L P,
      (FP.floor cfg a : Res ArithErr _) ≠ .ok y ∧ (FP.ceil cfg a : Res ArithErr _) ≠ .ok y ∧
      (FP.round cfg a : Res ArithErr _) ≠ .ok y := by
    intro a ha y
    obtain ⟨h1, h2⟩ := C19_floor_ceil_min (ε := ArithErr) hv hc
    obtain rfl : a = FP.min := value_inj (ha.trans C52_bounds_value.1.symm)
    rw [h1, h2, C19_round_panics hv hc _ (.inl ha)]
    exact ⟨by simp [Res.panic], by simp [Res.panic], by simp [Res.panic]⟩
  cases op with
  | lit z =>
    cases hx
    refine ⟨_, rfl, ?_⟩
    unfold value; rw [hn z hp]
  | add i j => exact (C80_cadd h (hs i) (hs j)).ok x hx
  | sub i j => exact (C80_csub h (hs i) (hs j)).ok x hx
  | neg i => exact (C80_cneg h (hs i)).ok x hx
  | abs i => exact (C80_abs h (hs i)).ok x hx
  | mulInt i n => exact (C80_cmul h (hs i) (hn n hp)).ok x hx
  | mul i j m => exact (C80_rmul h hv hv' (hs i) (hs j) m).ok x hx
  | div i j m => exact (C80_rdiv h hv hv' (hs i) (hs j) m fun _ => hc).ok x hx
  | divInt i n m => exact (C80_rdiv_int h (hs i) (hn n hp) m fun _ => hc).ok x hx
  | recip i m => exact (C80_recip h hv hv' (hs i) m fun _ => hc).ok x hx
  | half i j m => exact (C80_half_sum (hs i) (hs j) m).ok x hx
  | sqrt i m => exact (C80_rsqrt hv hv' (hs i) m).ok x hx
  | nextPower i => exact (C80_next_power h (hs i)).ok x hx
  | truncTo i j =>
    cases hx
    exact ⟨_, rfl, C80_round_towards_zero (hs i) (hs j)⟩
  | floor i =>
    exact ((C80_floor_ceil_round h hv hv' (hs i) (fun e => (hmin _ e x).1 hx) x).1).1 hx
  | ceil i =>
    exact ((C80_floor_ceil_round h hv hv' (hs i) (fun e => (hmin _ e x).2.1 hx) x).2.1).1 hx
  | round i =>
    exact ((C80_floor_ceil_round h hv hv' (hs i) (fun e => (hmin _ e x).2.2 hx) x).2.2).1 hx
  | satAdd i j => exact hp.elim
  | satSub i j => exact hp.elim
  | satMul i j m => exact hp.elim

theorem op_rangeless {cfg cfg' : Cfg} (hv : Valid cfg L P) (hv' : Valid cfg' L' P) {op : Op}
    (hp : op.Rangeless) {s : Regs L P} {s' : Regs L' P} (hs : s.Same s') (e : ArithErr)
    (hx : op.run cfg s = .err e) : op.run cfg' s' = .err e := by
  have key : ∀ {r : Res ArithErr (FP L P)} {r' : Res ArithErr (FP L' P)}, Widens r r' →
      r = .err e → (∀ y, r' = .ok y → ∃ x, r = .ok x) → r' = .err e := by
    intro r r' w hr hy
    rcases w.range e hr with h | ⟨y, h, _⟩
    · exact h
    · obtain ⟨x, hx⟩ := hy y h
      rw [hr] at hx; cases hx
  cases op with
  | sqrt i m =>
    exact key (C80_rsqrt hv hv' (hs i) m) hx fun y hy => (C80_rsqrt hv' hv (hs i).symm m).ok y hy
      |>.imp fun _ h => h.1
  | half i j m =>
    exact key (C80_half_sum (hs i) (hs j) m) hx fun y hy =>
      (C80_half_sum (hs i).symm (hs j).symm m).ok y hy |>.imp fun _ h => h.1
  | truncTo i j => cases hx
  | lit z => cases hx
  | _ => exact hp.elim

theorem same_put {s : Regs L P} {s' : Regs L' P} (hs : s.Same s') (d : Nat) {x : FP L P}
    {y : FP L' P} (h : value y = value x) : (s.put d x).Same (s'.put d y) := by
  intro k
  unfold Regs.put
  split
  · exact h
  · exact hs k

theorem cmd_widens {cfg cfg' : Cfg} (h : L.bits < L'.bits) (hv : Valid cfg L P)
    (hv' : Valid cfg' L' P) (hc : cfg.overflowChecks = true) :
    ∀ (fuel : Nat) (c : Cmd) (_ : c.Plain L) (s t : Regs L P) (s' : Regs L' P) (_ : s.Same s')
      (_ : c.run cfg fuel s = .ok t), ∃ t', c.run cfg' fuel s' = .ok t' ∧ t.Same t'
  | 0, c, _, s, t, s', _, ht => by unfold Cmd.run at ht; cases ht
  | fuel + 1, c, hp, s, t, s', hs, ht => by
    have ih := cmd_widens h hv hv' hc fuel
    cases c with
    | skip => cases ht; exact ⟨s', rfl, hs⟩
    | set d op =>
      unfold Cmd.run at ht ⊢
      obtain ⟨x, hx, e⟩ := bind_ok_inv ht
      cases e
      obtain ⟨y, hy, ey⟩ := op_widens h hv hv' hc hp hs x hx
      rw [hy]
      exact ⟨_, rfl, same_put hs d ey⟩
    | attempt d op c e =>
      unfold Cmd.run at ht ⊢
      obtain ⟨h1, h2, h3, h4⟩ := hp
      cases ho : op.run cfg s with
      | ok x =>
        simp only [ho] at ht
        obtain ⟨y, hy, ey⟩ := op_widens h hv hv' hc h1 hs x ho
        simp only [hy]
        exact ih c h3 _ t _ (same_put hs d ey) ht
      | err k =>
        simp only [ho] at ht
        simp only [op_rangeless hv hv' h2 hs k ho]
        exact ih e h4 _ t _ hs ht
      | fault k => simp only [ho] at ht; cases ht
    | seq c e =>
      unfold Cmd.run at ht ⊢
      obtain ⟨u, hu, hut⟩ := bind_ok_inv ht
      obtain ⟨u', hu', su⟩ := ih c hp.1 s u s' hs hu
      rw [hu']
      exact ih e hp.2 u t u' su hut
    | cond i j c e =>
      unfold Cmd.run at ht ⊢
      rw [C80_cmp (hs i) (hs j)]
      split at ht
      · rw [if_pos ‹_›]; exact ih c hp.1 s t s' hs ht
      · rw [if_neg ‹_›]; exact ih e hp.2 s t s' hs ht
    | loop i j c =>
      unfold Cmd.run at ht ⊢
      rw [C80_cmp (hs i) (hs j)]
      split at ht
      · rw [if_pos ‹_›]
        obtain ⟨u, hu, hut⟩ := bind_ok_inv ht
        obtain ⟨u', hu', su⟩ := ih c hp s u s' hs hu
        rw [hu']
        exact ih (.loop i j c) hp u t u' su hut
      · rw [if_neg ‹_›]; cases ht; exact ⟨s', rfl, hs⟩

/-- C100: a program (see `Cmd.Plain`) that ends with a result on a narrow layout, in a build with
overflow checks, ends with the same numbers on a wider layout, in every build. -/
theorem C100_widen {cfg cfg' : Cfg} (h : L.bits < L'.bits) (hv : Valid cfg L P)
    (hv' : Valid cfg' L' P) (hc : cfg.overflowChecks = true) {c : Cmd} (hp : c.Plain L)
    {s t : Regs L P} {s' : Regs L' P} (hs : s.Same s') (ht : c.Ends cfg s (.ok t)) :
    ∃ t', c.Ends cfg' s' (.ok t') ∧ t.Same t' := by
  obtain ⟨_, f, hf⟩ := ht
  obtain ⟨t', h1, h2⟩ := cmd_widens h hv hv' hc f c hp s t s' hs hf
  exact ⟨t', ⟨by simp, f, h1⟩, h2⟩

example : ∃ t', interest.Ends releaseCfg (interestStart : Regs .i128 9) (.ok t') ∧
    value (t' 6) = 33568214581 / 10 ^ 9 := by
  have e : final (interest.run debugCfg 40 (interestStart : Regs .i64 9)) 6 = .ok 33568214581 := by
    decide +kernel
  have hi := interest_ends
  generalize interest.run debugCfg 40 (interestStart : Regs .i64 9) = r at e hi
  rcases r with t | _ | _
  · obtain ⟨t', h1, h2⟩ := C100_widen (L' := .i128) (cfg' := releaseCfg) (s' := interestStart)
      (by decide) (by decide +kernel) (by decide +kernel) rfl
      (by simp [interest, Cmd.Plain, Op.Plain, Op.Rangeless, Fits, iMin, iMax, Layout.bits])
      (by
        intro i
        unfold interestStart
        split_ifs <;> decide +kernel) hi
    refine ⟨t', h1, ?_⟩
    rw [h2 6]
    have : (t 6).inner.toInt = 33568214581 := by
      injection e
    unfold value
    rw [this]; norm_num
  · cases e
  · cases e

/-! ## Examples, and what the conditions exclude -/

example : interest.Safe .i64 9 ∧ interest.Plain .i64 ∧ Valid debugCfg .i64 9 ∧
    Valid releaseCfg .i128 9 := by
  refine ⟨?_, ?_, by decide +kernel, by decide +kernel⟩
  · simp [interest, Cmd.Safe, Op.Safe]
  · simp [interest, Cmd.Plain, Op.Plain, Op.Rangeless, Fits, iMin, iMax, Layout.bits]

example :
    final (interest.run debugCfg 40 (interestStart : Regs .i64 9)) 0 = .ok 1126825030130 ∧
    final (interest.run debugCfg 40 (interestStart : Regs .i64 9)) 6 = .ok 33568214581 ∧
    final (interest.run releaseCfg 40 (interestStart : Regs .i64 9)) 6 = .ok 33568214581 ∧
    final (interest.run releaseCfg 40 (interestStart : Regs .i128 9)) 0 = .ok 1126825030130 ∧
    final (interest.run releaseCfg 40 (interestStart : Regs .i128 9)) 6 = .ok 33568214581 := by
  decide +kernel

/-- C100: what the conditions exclude.  A program may handle a panic of one profile in no other way
than not making the call; recovering from an overflow, or saturating, lets a program observe the
range of the type; and without overflow checks a narrow type may divide wrongly. -/
theorem C100_outside_domain :
    final ((Cmd.set 1 (.floor 0)).run debugCfg 1 (fun _ => (FP.min : FP .i64 9))) 1 = .panic ∧
    final ((Cmd.set 1 (.floor 0)).run releaseCfg 1 (fun _ => (FP.min : FP .i64 9))) 1
      = .ok (-9223372036000000000) ∧
    (let c := Cmd.seq (.set 0 (.lit 9223372036854775807)) <| .seq (.set 1 (.lit 1)) <|
        .attempt 2 (.add 0 1) (.set 3 (.lit 7)) (.set 3 (.lit 8))
     final (c.run debugCfg 9 (fun _ => (⟨0⟩ : FP .i64 9))) 3 = .ok 8 ∧
     final (c.run debugCfg 9 (fun _ => (⟨0⟩ : FP .i128 9))) 3 = .ok 7) ∧
    (let c := Cmd.seq (.set 0 (.lit 9223372036854775807)) <| .seq (.set 1 (.lit 1)) <|
        .set 2 (.satAdd 0 1)
     final (c.run debugCfg 9 (fun _ => (⟨0⟩ : FP .i64 9))) 2 = .ok 9223372036854775807 ∧
     final (c.run debugCfg 9 (fun _ => (⟨0⟩ : FP .i128 9))) 2 = .ok 9223372036854775808) ∧
    (let c := Cmd.seq (.set 0 (.lit 5000000000)) <| .seq (.set 1 (.lit 9000000000000000000)) <|
        .set 2 (.div 0 1 .nearest)
     final (c.run debugCfg 9 (fun _ => (⟨0⟩ : FP .i64 9))) 2 = .panic ∧
     final (c.run releaseCfg 9 (fun _ => (⟨0⟩ : FP .i64 9))) 2 = .ok 0 ∧
     final (c.run releaseCfg 9 (fun _ => (⟨0⟩ : FP .i128 9))) 2 = .ok 1) := by
  decide +kernel

end Fixnum
