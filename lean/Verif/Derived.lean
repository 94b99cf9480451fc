import Verif.Serde

/-!
# Derived traits, error texts and the JSON schema

Model of the derive list at `/repo/src/lib.rs:197` (`Default`, `Hash`; the derived order and equality
are in `FixedPoint.lean`), of `Display` for the error types, `/repo/src/errors.rs:31-35,55-59`, and of
`/repo/src/schemars.rs`.
-/

namespace Fixnum

variable {L : Layout} {P : Nat}

/-- `#[derive(Default)]`, `/repo/src/lib.rs:197`: the default of the layout type, zero. -/
def FP.default : FP L P := ⟨BitVec.ofInt _ 0⟩

/-- `Ord::max`, provided by `core` over the derived `cmp` (`/repo/src/lib.rs:197`): `self` if `other`
is less, else `other`. -/
def FP.ordMax (a b : FP L P) : FP L P := if FP.cmp b a = .lt then a else b

/-- `Ord::min`, provided by `core`: `other` if it is less than `self`, else `self`.  Over the
derived `cmp`, `/repo/src/lib.rs:197`. -/
def FP.ordMin (a b : FP L P) : FP L P := if FP.cmp b a = .lt then b else a

/-- `Ord::clamp`, provided by `core`: `assert!(min <= max)`, then the bound passed, if any.  Over
the derived `cmp`, `/repo/src/lib.rs:197`. -/
def FP.ordClamp (x lo hi : FP L P) : Res ε (FP L P) := do
  rustAssert (decide (FP.cmp lo hi ≠ .gt))
  .ok (if FP.cmp x lo = .lt then lo else if FP.cmp x hi = .gt then hi else x)

/-- One call on a `Hasher`: `write_i16 … write_i128` with the number written.  What the derive of
`Hash` calls, `/repo/src/lib.rs:197`. -/
structure HashWrite where
  width : Nat
  v : Int
deriving DecidableEq, Repr

/-- `#[derive(Hash)]`, `/repo/src/lib.rs:197`: the calls made on the hasher: the inner integer, and
nothing for `PhantomData`. -/
def FP.hash (x : FP L P) : List HashWrite := [⟨L.bits, x.inner.toInt⟩]

/-- `Display::fmt` for `ArithmeticError`, `/repo/src/errors.rs:31-35`: the text handed to
`write_str`. -/
def ArithErr.display (e : ArithErr) : String := e.asStr

/-- `Display::fmt` for `ConvertError`, `/repo/src/errors.rs:55-59`. -/
def ConvErr.display (e : ConvErr) : String := e.reason

/-- `schemars::schema::InstanceType`, the types of JSON.  Used at `/repo/src/schemars.rs:20`. -/
inductive JsonType
  | null
  | boolean
  | object
  | array
  | number
  | string
  | integer
deriving DecidableEq, Repr

/-- The schema returned by `json_schema`, `/repo/src/schemars.rs:18-24`: a `SchemaObject` of which
only `instance_type` is set; with `schema_name` (14-16) and `is_referenceable` (10-12). -/
structure JsonSchemaOf where
  referenceable : Bool
  name : String
  instanceType : Option JsonType
deriving DecidableEq, Repr

/-- `impl JsonSchema for FixedPoint`, `/repo/src/schemars.rs:9-25`. -/
def FP.jsonSchema : JsonSchemaOf := ⟨false, "FixedPoint", some .string⟩

end Fixnum
