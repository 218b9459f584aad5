import Verif.Props.Types
import Verif.Props.Decimal
import Verif.Props.Time
import Verif.Props.LitCons
import Verif.Props.Literals
import Verif.Props.FieldRef
import Verif.Props.Visit
import Verif.Props.Expr
import Verif.Props.Lambda
import Verif.Props.ExtSet
import Verif.Props.FuncTypes
import Verif.Props.Variants
import Verif.Props.Derivation
import Verif.Props.Collection
import Verif.Props.Rel
import Verif.Props.RelMem
import Verif.Props.Aggregate
import Verif.Props.Plan
import Verif.Props.ExprProto
import Verif.Props.RelProto
import Verif.Props.RelRewrite
import Verif.Props.VirtualTable
import Verif.Props.PlanProto
import Verif.Props.MatchAt
import Verif.Props.Resolve
import Verif.Props.NoPanic
import Verif.Props.LocalTypes
import Verif.Props.Dialect
import Verif.Props.CallLookup
import Verif.Props.RefText
import Verif.Props.DialectFile
import Verif.Props.FuncCall
import Verif.Props.FuncCallMore
import Verif.Props.Output
import Verif.Props.TypeText
import Verif.Props.FuncName
import Verif.Props.OpChain
import Verif.Props.TypeNumber
import Verif.Props.Scalar
import Verif.Props.Extended
import Verif.Props.Subquery
import Verif.Props.DayInterval
import Verif.Props.DayIntervalText
import Verif.Props.WithType
import Verif.Props.TestCase
import Verif.Props.TestCaseAgg
import Verif.Props.TestCaseCalls
import Verif.Props.TestTokens
import Verif.Props.TestValue
import Verif.Props.TestPrint
import Verif.Props.TestPrintMore
import Verif.Props.ExprBuild
import Verif.Props.Writable
import Verif.Props.Reread
import Verif.Props.PlanBuild
import Verif.Props.Session
import Verif.Props.AggMem
import Verif.Props.Attrs
import Verif.Props.ArgFile
import Verif.Props.Switch
import Verif.Props.Rows
import Verif.Props.Value
import Verif.Props.RowsSame
import Verif.Props.VisitTree
import Verif.Props.WithParams
import Verif.Props.Overloads
import Verif.Props.TypeLayout
import Verif.Props.CaseText
import Verif.Props.TypeStrings
import Verif.Props.FuncRegistry
import Verif.Props.RelCopy
import Verif.Props.Interchange
import Verif.Props.ExprText
import Verif.Props.AggText
