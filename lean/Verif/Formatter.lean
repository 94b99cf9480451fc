import Verif.Io
import Verif.Derived

/-!
# Formatters with flags

`format!("{:+>12.3}", x)` hands the flags to `fmt` in the `Formatter`.  `Io.lean` has formatters without
flags.
-/

namespace Fixnum

open Res

variable {E σ : Type} {L : Layout} {P : Nat}

/-- `core::fmt::Alignment`.  Part of the `Formatter` of `/repo/src/lib.rs:649,658`. -/
inductive FmtAlign
  | left
  | center
  | right
deriving DecidableEq, Repr

/-- The flags of a `core::fmt::Formatter`: `{:fill align + # 0 width .precision}`.  The argument of `fmt`
at `/repo/src/lib.rs:649,658` and `/repo/src/errors.rs:32,56`. -/
structure FmtFlags where
  fill : Char := ' '
  align : Option FmtAlign := none
  plus : Bool := false
  alternate : Bool := false
  zero : Bool := false
  width : Option Nat := none
  precision : Option Nat := none
deriving DecidableEq, Repr

/-- `core::fmt::Formatter`: the flags, and the writer behind it, which takes its state to the next or
fails.  The argument of `fmt` at `/repo/src/lib.rs:649,658` and `/repo/src/errors.rs:32,56`. -/
structure Formatter (E σ : Type) where
  flags : FmtFlags
  write : List Char → σ → Res E σ

namespace Formatter

/-- `Formatter::write_str`: hands the text on, whatever the flags.  `core`.  Used at
`/repo/src/lib.rs:652,661` and `/repo/src/errors.rs:33,57`. -/
def writeStr (f : Formatter E σ) (s : List Char) (out : σ) : Res E σ := f.write s out

/-- `format!`: a `String` as the writer, to which text is appended.  `alloc`.  The caller of `fmt` at
`/repo/src/lib.rs:649,658`. -/
def ofFlags (flags : FmtFlags) : Formatter E (List Char) := ⟨flags, fun s out => .ok (out ++ s)⟩

end Formatter

/-- `Display::fmt`, `/repo/src/lib.rs:657-663`. -/
def FP.fmtDisplay (cfg : Cfg) (x : FP L P) (f : Formatter E σ) (out : σ) : Res E σ := do
  let buf ← FP.stringify cfg x []
  f.writeStr buf out

/-- `Debug::fmt`, `/repo/src/lib.rs:648-654`. -/
def FP.fmtDebug (cfg : Cfg) (x : FP L P) (f : Formatter E σ) (out : σ) : Res E σ := do
  let buf ← FP.stringify cfg x []
  f.writeStr buf out

/-- `Display::fmt` for `ArithmeticError`, `/repo/src/errors.rs:31-35`. -/
def ArithErr.fmtDisplay (e : ArithErr) (f : Formatter E σ) (out : σ) : Res E σ :=
  f.writeStr e.asStr.toList out

/-- `Display::fmt` for `ConvertError`, `/repo/src/errors.rs:55-59`. -/
def ConvErr.fmtDisplay (e : ConvErr) (f : Formatter E σ) (out : σ) : Res E σ :=
  f.writeStr e.reason.toList out

end Fixnum
