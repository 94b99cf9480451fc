import Verif.Machine
import Verif.U256
import Verif.U256Basic
import Verif.U256DivWord
import Verif.U256Shift
import Verif.U256Knuth
import Verif.Errors
import Verif.I256
import Verif.I256Basic
import Verif.I256Total
import Verif.Sqrt
import Verif.SqrtBasic
import Verif.Layout
import Verif.Spec
import Verif.ConstFn
import Verif.Ops
import Verif.PowerTable
import Verif.FixedPoint
import Verif.Props.Wide
import Verif.SpecBasic
import Verif.PromBasic
import Verif.CoefBasic
import Verif.OpsBasic
import Verif.Props.Checked
import Verif.Props.Rounding
import Verif.Props.Division
import Verif.IntegralBasic
import Verif.PowerBasic
import Verif.Props.Integral
import Verif.Props.Decimal
import Verif.RsqrtBasic
import Verif.Refine
import Verif.Props.Sqrt
import Verif.Props.Order
import Verif.Props.Profile
import Verif.RefineSerde
import Verif.Props.ProfileIo
import Verif.Strings
import Verif.TextSpec
import Verif.StringsBasic
import Verif.ParseBasic
import Verif.DisplayBasic
import Verif.RefineText
import Verif.Props.Text
import Verif.Literal
import Verif.LiteralBasic
import Verif.Props.Literal
import Verif.Float
import Verif.FloatSpec
import Verif.FloatBasic
import Verif.FloatCore
import Verif.Props.Float
import Verif.FloatOps
import Verif.RefineFloat
import Verif.FloatOpsBasic
import Verif.Props.ToFloat
import Verif.Codec
import Verif.Props.Codec
import Verif.Serde
import Verif.Props.Serde
import Verif.ImplOp
import Verif.Props.ImplOp
import Verif.FloatMono
import Verif.FloatExact
import Verif.FloatRoundTrip
import Verif.Props.RoundTrip
import Verif.Props.FloatOrder
import Verif.Provided
import Verif.Props.Provided
import Verif.Props.Laws
import Verif.Props.Programs
import Verif.DisplayExact
import Verif.Props.Printing
import Verif.Props.TextLaws
import Verif.Derived
import Verif.Props.Derived
import Verif.Props.LiteralExact
import Verif.Bytes
import Verif.BytesBasic
import Verif.Props.Bytes
import Verif.U256Ops
import Verif.U256OpsBasic
import Verif.Props.WideOps
import Verif.Props.Layouts
import Verif.Props.Transfer
import Verif.Props.Idempotent
import Verif.Props.Algebra
import Verif.Compact
import Verif.Props.Compact
import Verif.Props.Precision
import Verif.Props.Clients
import Verif.Props.Ledger
import Verif.Props.RunningError
import Verif.Props.Finance
import Verif.Props.SerdeModules
import Verif.Props.Panics
import Verif.Props.SqrtGuess
import Verif.Props.Imperative
import Verif.Props.Rational
import Verif.Props.Reasons
import Verif.FloatHits
import Verif.FloatClosed
import Verif.Props.FloatClosed
import Verif.Props.FloatLiteral
import Verif.FloatFaithful
import Verif.Props.ToFloatExact
import Verif.Props.Documents
import Verif.Props.ToFloatFormula
import Verif.Props.Steps
import Verif.Platform
import Verif.Conformance
import Verif.ConformanceUnit
import Verif.Wrap
import Verif.Props.Wrap
import Verif.Io
import Verif.Props.Io
import Verif.Props.Records
import Verif.Props.WeightedMean
import Verif.Props.Monotone
import Verif.Props.Agreement
import Verif.Props.ErrorMax
import Verif.Props.Finer
import Verif.Props.Power
import Verif.Props.Balances
import Verif.Props.Exact
import Verif.Props.Reciprocal
import Verif.Props.Exponential
import Verif.Props.ProRata
import Verif.Props.Loan
import Verif.Props.Newton
import Verif.Props.Horner
import Verif.Props.Logarithm
import Verif.Props.Variance
import Verif.Props.MovingAverage
import Verif.Formatter
import Verif.Props.Formatter
import Verif.Props.Brackets
import Verif.Props.BalancedSum
import Verif.Props.Euclid
import Verif.Props.TimeMean
import Verif.Props.Vesting
import Verif.Props.Trading
import Verif.Props.FinanceReturns
import Verif.Props.Median
import Verif.Props.RateLimit
import Verif.Props.Rewards
import Verif.Props.Tax
import Verif.Props.PrimTypes
import Verif.Props.Coins
