import Verif.Spec

/-!
# Specification of decimal text

Independent of the model of the parser and the printer: what a decimal literal is, how it is
written and which rational number it denotes.
-/

namespace Fixnum.Spec

/-- The character of a decimal digit. -/
def digit (d : Fin 10) : Char :=
  ['0', '1', '2', '3', '4', '5', '6', '7', '8', '9'].getD d '0'

/-- The natural number written by digits, most significant first. -/
def natOf (ds : List (Fin 10)) : Nat := ds.foldl (fun (n : Nat) (d : Fin 10) => 10 * n + d.val) 0

/-- A decimal literal: an optional sign (`some true` is a minus), digits, and optionally a point
followed by digits. -/
structure Literal where
  sign : Option Bool
  int : List (Fin 10)
  frac : Option (List (Fin 10))
deriving DecidableEq

namespace Literal

/-- At least one digit before the point, and after it if there is one. -/
def WellFormed (l : Literal) : Prop := l.int ≠ [] ∧ l.frac ≠ some []

/-- The digits after the point. -/
def fracDigits (l : Literal) : List (Fin 10) := l.frac.getD []

/-- The sign as written. -/
def signText : Option Bool → List Char
  | none => []
  | some true => ['-']
  | some false => ['+']

/-- The literal as written. -/
def text (l : Literal) : List Char :=
  signText l.sign ++ l.int.map digit ++
    match l.frac with
    | none => []
    | some f => '.' :: f.map digit

/-- The magnitude of the denoted number. -/
def magnitude (l : Literal) : ℚ :=
  natOf l.int + (natOf l.fracDigits : ℚ) / 10 ^ l.fracDigits.length

/-- The denoted number. -/
def denote (l : Literal) : ℚ := if l.sign = some true then -l.magnitude else l.magnitude

/-- Canonical form: no plus sign, no minus sign on zero; no superfluous leading zeros; a point
always followed by a digit, and no superfluous trailing zeros. -/
def Canonical (l : Literal) : Prop :=
  l.sign ≠ some false ∧ (l.sign = some true → l.magnitude ≠ 0) ∧
  (l.int = [0] ∨ ∃ d ds, l.int = d :: ds ∧ d ≠ 0) ∧
  (l.frac = some [0] ∨ ∃ d ds, l.frac = some (ds ++ [d]) ∧ d ≠ 0)

end Literal

/-- The code points with the Unicode property `White_Space` (Unicode 15, `PropList.txt`). -/
def whiteSpace : List Nat := [
  0x0009, 0x000A, 0x000B, 0x000C, 0x000D, 0x0020, 0x0085, 0x00A0, 0x1680, 0x2000, 0x2001, 0x2002,
  0x2003, 0x2004, 0x2005, 0x2006, 0x2007, 0x2008, 0x2009, 0x200A, 0x2028, 0x2029, 0x202F, 0x205F,
  0x3000]

/-- `s` is the literal `l` surrounded by white space. -/
def IsText (s : List Char) (l : Literal) : Prop :=
  l.WellFormed ∧ ∃ a b, s = a ++ l.text ++ b ∧ (∀ c ∈ a, c.toNat ∈ whiteSpace) ∧
    ∀ c ∈ b, c.toNat ∈ whiteSpace

end Fixnum.Spec
