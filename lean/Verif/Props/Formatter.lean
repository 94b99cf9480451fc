import Verif.Formatter
import Verif.Props.Rounding
import Verif.Props.Printing

/-! # Property C130: format flags

`{:>12}`, `{:08.3}`, `{:+}` and the other flags of a format string have no effect. -/

namespace Fixnum

open Res Spec

variable {E σ : Type} {L : Layout} {P : Nat}

namespace Spec

/-- What the documentation of `std::fmt` says a text becomes: cut to the precision, then filled up to the
width, by default on the right. -/
def padded (g : FmtFlags) (s : List Char) : List Char :=
  let s := match g.precision with
    | some p => s.take p
    | none => s
  let n := match g.width with
    | some w => w - s.length
    | none => 0
  match g.align with
  | some .right => List.replicate n g.fill ++ s
  | some .center => List.replicate (n / 2) g.fill ++ s ++ List.replicate ((n + 1) / 2) g.fill
  | _ => s ++ List.replicate n g.fill

end Spec

/-- **C130** whatever the flags, `Display` and `Debug` make exactly one call of the writer, with the same
text as without flags, and return what it returns. -/
theorem C130_ignored (cfg : Cfg) (x : FP L P) (f : Formatter E σ) (out : σ) :
    (∀ s, (FP.display cfg x : Res E _) = .ok s →
      FP.fmtDisplay cfg x f out = f.write s out ∧ FP.fmtDebug cfg x f out = f.write s out) ∧
    (∀ t, (FP.display cfg x : Res E _) = .fault t →
      FP.fmtDisplay cfg x f out = .fault t ∧ FP.fmtDebug cfg x f out = .fault t) := by
  unfold FP.display FP.fmtDisplay FP.fmtDebug Formatter.writeStr
  constructor
  · intro s h
    rw [h]
    exact ⟨rfl, rfl⟩
  · intro t h
    rw [h]
    exact ⟨rfl, rfl⟩

/-- `format!("{:*^+012.1}", 1.5)` is `1.5`. -/
example : FP.fmtDisplay debugCfg (⟨1500000000⟩ : FP .i64 9)
    (.ofFlags ⟨'*', some .center, true, true, true, some 12, some 1⟩ : Formatter Unit _) [] =
      .ok "1.5".toList := by decide +kernel
example := (C130_ignored (E := Unit) debugCfg (⟨1500000000⟩ : FP .i64 9)
  (.ofFlags { width := some 12 }) []).1 "1.5".toList (by decide +kernel)
/-- With precision 0, the text of `MIN` panics with any flags. -/
example := (C130_ignored (E := Unit) debugCfg (⟨-32768⟩ : FP .i16 0)
  (.ofFlags { width := some 12 }) []).2 .panic (by decide +kernel)

/-- **C130** the same for the texts of errors. -/
theorem C130_errors (e : ArithErr) (c : ConvErr) (f : Formatter E σ) (out : σ) :
    e.fmtDisplay f out = f.write e.display.toList out ∧
    c.fmtDisplay f out = f.write c.display.toList out :=
  ⟨rfl, rfl⟩

example : ArithErr.divisionByZero.fmtDisplay (.ofFlags { width := some 30, fill := '*' } :
    Formatter Unit _) [] = .ok "division by zero".toList := by decide +kernel

/-- **C130** `format!` with two sets of flags, or none, gives the same text. -/
theorem C130_format (cfg : Cfg) (x : FP L P) (g : FmtFlags) :
    (FP.fmtDisplay cfg x (.ofFlags g) [] : Res E _) = FP.display cfg x ∧
    (FP.fmtDebug cfg x (.ofFlags g) [] : Res E _) = FP.display cfg x := by
  unfold FP.display FP.fmtDisplay FP.fmtDebug Formatter.writeStr Formatter.ofFlags
  cases (FP.stringify cfg x [] : Res E _) <;> exact ⟨rfl, rfl⟩

example : (FP.fmtDebug debugCfg (⟨-25⟩ : FP .i32 2) (.ofFlags { precision := some 1 }) [] : Res Unit _) =
    .ok "-0.25".toList := by decide +kernel

theorem padded_length (g : FmtFlags) (s : List Char) (w : Nat) (h : g.width = some w) :
    w ≤ (Spec.padded g s).length := by
  have hd : ∀ n, n / 2 + (n + 1) / 2 = n := by omega
  unfold Spec.padded
  rw [h]
  dsimp only
  have hc := hd (w - (match g.precision with
    | some p => s.take p
    | none => s).length)
  generalize (match g.precision with
    | some p => s.take p
    | none => s) = t at hc ⊢
  rcases g.align with _ | _ | _ | _ <;>
    simp only [List.length_append, List.length_replicate] <;> omega

/-- **C130** so a text is as `std::fmt` documents it if the flags ask for nothing: no precision below its
length, no width above it. -/
theorem C130_nothing_to_do {cfg : Cfg} {x : FP L P} {g : FmtFlags} {s : List Char}
    (h : (FP.display cfg x : Res E _) = .ok s) (h1 : ∀ p, g.precision = some p → s.length ≤ p)
    (h2 : ∀ w, g.width = some w → w ≤ s.length) :
    (FP.fmtDisplay cfg x (.ofFlags g) [] : Res E _) = .ok (Spec.padded g s) := by
  have e1 : (match g.precision with
    | some p => s.take p
    | none => s) = s := by
    cases hp : g.precision with
    | none => rfl
    | some p => exact List.take_of_length_le (h1 p hp)
  have e2 : (match g.width with
    | some w => w - s.length
    | none => 0) = 0 := by
    cases hp : g.width with
    | none => rfl
    | some w => exact Nat.sub_eq_zero_of_le (h2 w hp)
  rw [(C130_format cfg x g).1, h]
  unfold Spec.padded
  rw [e1]
  dsimp only
  rw [e2]
  rcases g.align with _ | _ | _ | _ <;> simp

example := C130_nothing_to_do (E := Unit) (cfg := debugCfg) (x := (⟨-25⟩ : FP .i32 2))
  (g := { width := some 5, align := some .right, precision := some 5 }) (s := "-0.25".toList)
  (by decide +kernel) (by decide) (by decide)

/-- **C130** and is not if they ask for more room, or for less and no room. -/
theorem C130_not_padded {cfg : Cfg} {x : FP L P} {g : FmtFlags} {s : List Char}
    (h : (FP.display cfg x : Res E _) = .ok s)
    (hg : (∃ w, g.width = some w ∧ s.length < w) ∨
      g.width = none ∧ ∃ p, g.precision = some p ∧ p < s.length) :
    (FP.fmtDisplay cfg x (.ofFlags g) [] : Res E _) ≠ .ok (Spec.padded g s) := by
  rw [(C130_format cfg x g).1, h]
  intro e
  have e : s = Spec.padded g s := by injection e
  rcases hg with ⟨w, hw, hl⟩ | ⟨hw, p, hp, hl⟩
  · have := padded_length g s w hw
    rw [← e] at this
    omega
  · have hlen : (Spec.padded g s).length = p := by
      unfold Spec.padded
      rw [hw, hp]
      rcases g.align with _ | _ | _ | _ <;> simp <;> omega
    rw [← e] at hlen
    omega

/-- `{:>8}` does not fill `1.5` up, `{:.2}` does not cut `1.255`. -/
example := C130_not_padded (E := Unit) (cfg := debugCfg) (x := (⟨1500000000⟩ : FP .i64 9))
  (g := { width := some 8, align := some .right }) (s := "1.5".toList) (by decide +kernel)
  (.inl ⟨8, rfl, by decide⟩)
example := C130_not_padded (E := Unit) (cfg := debugCfg) (x := (⟨1255⟩ : FP .i64 3))
  (g := { precision := some 2 }) (s := "1.255".toList) (by decide +kernel)
  (.inr ⟨rfl, 2, rfl, by decide⟩)
example : Spec.padded { width := some 8, align := some .right } "1.5".toList = "     1.5".toList ∧
    Spec.padded { width := some 6, align := some .center, fill := '*' } "1.5".toList =
      "*1.5**".toList ∧
    Spec.padded { width := some 6, precision := some 2 } "1.5".toList = "1.    ".toList := by decide +kernel

end Fixnum
