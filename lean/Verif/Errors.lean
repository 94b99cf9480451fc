import Verif.Machine

/-! # Error values, model of `/repo/src/errors.rs` -/

namespace Fixnum

/-- `enum ArithmeticError`, `/repo/src/errors.rs:6-18`. -/
inductive ArithErr
  | overflow
  | divisionByZero
  | domainViolation
deriving DecidableEq, Repr

/-- `ArithmeticError::as_str`, `/repo/src/errors.rs:22-28`. -/
def ArithErr.asStr : ArithErr → String
  | .overflow => "overflow"
  | .divisionByZero => "division by zero"
  | .domainViolation => "domain violation"

/-- `struct ConvertError`, `/repo/src/errors.rs:40-42`; `as_str` (50-52) is the field. -/
structure ConvErr where
  reason : String
deriving DecidableEq, Repr

end Fixnum
