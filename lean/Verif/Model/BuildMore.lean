import Verif.Model.RelBuild
import Verif.Model.Aggregate
import Verif.Model.ExtSet
/-!
# Building relations without an output mapping

Models the remaining relation builders of `plan/builders.go`, those that take no output mapping.
-/

namespace Verif

/-- `IcebergSnapshot`, `plan/relations.go:396-405`; nil is `none` elsewhere -/
inductive Snapshot where
  | id (s : String)
  | timestamp (t : Int64)
  deriving DecidableEq

/-- `Measure`, `plan/builders.go:301-306`; a nil function is `none` -/
def newMeasure (f : Option AggFn) (filter : Expr) : Measure := ⟨f, filter⟩

/-- `VirtualTableRemap`, `plan/builders.go:559-570`, and `VirtualTable` 625-627 with a nil mapping: the
literals are used as expressions. A nil literal becomes a non-nil interface only if its type is known; here
both are a literal expression. -/
def virtualTableLits (fieldNames : List String) (remap : Option (List Int32)) (values : List (List Lit)) :
    Res Rel :=
  virtualTableRemap fieldNames remap (values.map fun row => row.map Expr.lit)

/-- `EmptyVirtualTable`, `plan/builders.go:629-642` -/
def emptyVirtualTable (fieldNames : List String) (types : List Ty) : Res Rel :=
  .ok (.read {} { schema := { names := fieldNames, types := types } } (.virt []))

/-- `ExtensionTable`, `plan/builders.go:644-651` -/
def extensionTable (detail : Option Nat) (schema : NamedStruct) : Res Rel :=
  .ok (.read {} { schema := schema } (.extTable detail))

/-- `IcebergTableFromMetadataFile`, `plan/builders.go:653-671` -/
def icebergTable (uri : String) (snapshot : Option Snapshot) (schema : NamedStruct) : Res Rel :=
  match snapshot with
  | none => .ok (.read {} { schema := schema } (.iceberg uri 0 "" none))
  | some (.id s) => .ok (.read {} { schema := schema } (.iceberg uri 0 s none))
  | some (.timestamp t) => .ok (.read {} { schema := schema } (.iceberg uri t "" none))

/-- `SortAscNullsLast`, `types/types.go:188`, as a number -/
def sortAscNullsLast : Int32 := 2

/-- `SortFields`, `plan/builders.go:700-710`; a nil input panics in `RootFieldRef` and is left out -/
def sortFields (input : Rel) : List Int32 → Res (List ESort)
  | [] => .ok []
  | i :: is =>
      rootFieldRef input i >>= fun e => sortFields input is >>= fun ss =>
      .ok (.mk e (.direction sortAscNullsLast) :: ss)

/-- `ExtensionSingle`, `plan/builders.go:1033-1047` -/
def extensionSingle (input : Option Rel) (d : Option ExtDef) : Res Rel :=
  match input, d with
  | some i, some d => .ok (.extSingle {} i d)
  | _, _ => .err

/-- `ExtensionLeaf`, `plan/builders.go:1049-1058` -/
def extensionLeaf (d : Option ExtDef) : Res Rel :=
  match d with
  | some d => .ok (.extLeaf {} d)
  | none => .err

/-- `ExtensionMulti`, `plan/builders.go:1060-1081` -/
def extensionMulti (inputs : List (Option Rel)) (d : Option ExtDef) : Res Rel :=
  if inputs.length = 0 then .err
  else
    match allInputs inputs with
    | none => .err
    | some is =>
      match d with
      | some d => .ok (.extMulti {} is d)
      | none => .err

/-! ## The extension set of the builder

A builder starts with an empty set (`NewBuilder`, `plan/builders.go:197-204`), which it shares with the
expression builders it gives out (`GetExprBuilder`, 223-228) and with the plans it makes (790-797). -/

/-- `GetFunctionRef`, `plan/builders.go:230-232`, and the set afterwards -/
def getFunctionRef (s : ExtSet) (nameSpace key : String) : Res (UInt32 × ExtSet) :=
  s.getAnchor .func ⟨nameSpace, key⟩

/-- `UserDefinedType`, `plan/builders.go:234-241`, and the set afterwards -/
def userDefinedType (s : ExtSet) (nameSpace typeName : String) (params : List TParam) : Res (Ty × ExtSet) :=
  s.getAnchor .type ⟨nameSpace, typeName⟩ >>= fun r => .ok (.udt NullabilityNullable 0 r.1 params, r.2)

end Verif
