import Verif.ImplOp

/-!
# Provided methods of the operation traits

`/repo/src/ops/mod.rs`: the bodies of `saturating_add`, `saturating_sub`, `saturating_mul` and
`saturating_rmul` that a type gets when it implements only the checked operation.  The types, the
checked operation, the comparisons with `ZERO` and the bounds are those of the implementor.
-/

namespace Fixnum

open Res

namespace Provided

variable {S R O E ε : Type}

/-- `CheckedAdd::saturating_add`, `/repo/src/ops/mod.rs:82-96`; `negR rhs` is `rhs < Rhs::ZERO`. -/
def saturatingAdd (negR : R → Bool) (mn mx : O) (cadd : S → R → Res E O) (lhs : S) (rhs : R) :
    Res ε O :=
  let isRhsNegative := negR rhs
  unwrapOr (cadd lhs rhs) (if isRhsNegative then mn else mx)

/-- `CheckedSub::saturating_sub`, `/repo/src/ops/mod.rs:154-168`. -/
def saturatingSub (negR : R → Bool) (mn mx : O) (csub : S → R → Res E O) (lhs : S) (rhs : R) :
    Res ε O :=
  let isRhsNegative := negR rhs
  unwrapOr (csub lhs rhs) (if isRhsNegative then mx else mn)

/-- `CheckedMul::saturating_mul`, `/repo/src/ops/mod.rs:229-244`; with the rounding mode applied to
`rmul` also `RoundingMul::saturating_rmul`, `/repo/src/ops/mod.rs:328-343`. -/
def saturatingMul (negS : S → Bool) (negR : R → Bool) (mn mx : O) (cmul : S → R → Res E O) (lhs : S)
    (rhs : R) : Res ε O :=
  let isLhsNegative := negS lhs
  let isRhsNegative := negR rhs
  unwrapOr (cmul lhs rhs) (if isLhsNegative == isRhsNegative then mx else mn)

end Provided

end Fixnum
