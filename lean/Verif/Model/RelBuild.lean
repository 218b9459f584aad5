import Verif.Model.Rel
/-!
# Building relations

Models the relation builders of `plan/builders.go` that take an output mapping. An input that is
`none` is a nil `Rel`; a mapping that is `none` is a nil slice.
-/

namespace Verif

/-- The loop `for _, idx := range remap { if idx < 0 || idx >= noutput { return err } }`, in every
builder below. -/
def checkMapping (noutput : Int32) : List Int32 → Res Unit
  | [] => .ok ()
  | idx :: m => if idx < 0 ∨ noutput ≤ idx then .err else checkMapping noutput m

/-- `checkMapping` of a slice that may be nil -/
def checkRemap (noutput : Int32) (remap : Option (List Int32)) : Res Unit :=
  checkMapping noutput (remap.getD [])

/-- `!x.GetType().WithNullability(types.NullabilityUnspecified).Equals(&types.BooleanType{})`,
`plan/builders.go:419,454,465`, negated -/
def yieldsBoolean (e : Expr) : Res Bool :=
  e.getType >>= fun t =>
  (t.withNullability NullabilityUnspecified).equals (.prim .boolean NullabilityUnspecified 0)

/-- `ProjectRemap`, `plan/builders.go:278-299` -/
def projectRemap (input : Option Rel) (remap : Option (List Int32)) (exprs : List Expr) : Res Rel :=
  match input with
  | none => .err
  | some i =>
    if exprs.length = 0 then .err
    else
      i.recordType >>= fun ts =>
      checkRemap (fieldCount ts + Int32.ofNat exprs.length) remap >>= fun _ =>
      .ok (.project { mapping := remap } i exprs none)

/-- `CrossRemap`, `plan/builders.go:364-380` -/
def crossRemap (left right : Option Rel) (remap : Option (List Int32)) : Res Rel :=
  match left, right with
  | some l, some r =>
      l.recordType >>= fun ls => r.recordType >>= fun rs =>
      checkRemap (fieldCount ls + fieldCount rs) remap >>= fun _ =>
      .ok (.cross { mapping := remap } l r none)
  | _, _ => .err

/-- `FetchRemap`, `plan/builders.go:386-403` -/
def fetchRemap (input : Option Rel) (offset count : Int64) (remap : Option (List Int32)) : Res Rel :=
  match input with
  | none => .err
  | some i =>
      i.recordType >>= fun ts => checkRemap (fieldCount ts) remap >>= fun _ =>
      .ok (.fetch { mapping := remap } i offset count none)

/-- `FilterRemap`, `plan/builders.go:409-438`; the indices are compared with
`input.directOutputSchema()` (line 424) -/
def filterRemap (input : Option Rel) (cond : Expr) (remap : Option (List Int32)) : Res Rel :=
  match input with
  | none => .err
  | some i =>
      if cond.isNil then .err
      else
        yieldsBoolean cond >>= fun b =>
        if !b then .err
        else
          i.directOutputSchema >>= fun ts => checkRemap (fieldCount ts) remap >>= fun _ =>
          .ok (.filter { mapping := remap } i cond none)

/-- the check of the post join filter, `plan/builders.go:464-469` -/
def postFilterOk (e : Expr) : Res Bool := if e.isNil then .ok true else yieldsBoolean e

/-- `JoinAndFilterRemap`, `plan/builders.go:444-486` -/
def joinAndFilterRemap (left right : Option Rel) (cond post : Expr) (ty : JoinType)
    (remap : Option (List Int32)) : Res Rel :=
  match left, right with
  | some l, some r =>
      if cond.isNil then .err
      else
        yieldsBoolean cond >>= fun b =>
        if !b then .err
        else if ty = .unspecified then .err
        else
          postFilterOk post >>= fun b =>
          if !b then .err
          else
            (Rel.join { mapping := remap } l r cond post ty none).directOutputSchema >>= fun ts =>
            checkRemap (fieldCount ts) remap >>= fun _ =>
            .ok (.join { mapping := remap } l r cond post ty none)
  | _, _ => .err

/-- `SortRemap`, `plan/builders.go:673-694` -/
def sortRemap (input : Option Rel) (remap : Option (List Int32)) (sorts : List ESort) : Res Rel :=
  match input with
  | none => .err
  | some i =>
      i.recordType >>= fun ts => checkRemap (fieldCount ts) remap >>= fun _ =>
      if sorts.length = 0 then .err
      else .ok (.sort { mapping := remap } i sorts none)

/-- `RecordType.Equals`, `types/types.go:1791-1793` with `AsStructType` 1807-1809 -/
def recordTypeEquals (a b : List Ty) : Res Bool :=
  (Ty.struct NullabilityRequired 0 a).equals (.struct NullabilityRequired 0 b)

/-- the loop over the further inputs of `SetRemap`, `plan/builders.go:737-743` -/
def checkSameTypes (output : List Ty) : List Rel → Res Unit
  | [] => .ok ()
  | i :: is =>
      i.recordType >>= fun ts => recordTypeEquals output ts >>= fun b =>
      if b then checkSameTypes output is else .err

/-- `in == nil` for some input, `plan/builders.go:722-726`; otherwise the inputs -/
def allInputs : List (Option Rel) → Option (List Rel)
  | [] => some []
  | none :: _ => none
  | some i :: is => (allInputs is).map (i :: ·)

/-- `SetRemap`, `plan/builders.go:712-750`; the operation 0 is the unspecified one -/
def setRemap (op : Int32) (remap : Option (List Int32)) (inputs : List (Option Rel)) : Res Rel :=
  if op = 0 then .err
  else if inputs.length < 2 then .err
  else
    match allInputs inputs with
    | none => .err
    | some is =>
      match is with
      | [] => .panic
      | i :: rest =>
        i.recordType >>= fun output => checkRemap (fieldCount output) remap >>= fun _ =>
        checkSameTypes output rest >>= fun _ =>
        .ok (.set { mapping := remap } is op none)

/-- `NamedScanRemap`, `plan/builders.go:534-552` -/
def namedScanRemap (names : List String) (schema : NamedStruct) (remap : Option (List Int32)) :
    Res Rel :=
  checkRemap (Int32.ofNat schema.types.length) remap >>= fun _ =>
  .ok (.read { mapping := remap } { schema := schema } (.named names none))

/-- one row of the type check of `VirtualTableFromExprRemap`, `plan/builders.go:600-605`, from
column `j` on -/
def checkRowTypes (typeList : List Ty) : Nat → List Expr → Res Unit
  | _, [] => .ok ()
  | j, v :: vs =>
      Res.index typeList j >>= fun t => v.getType >>= fun u => t.equals u >>= fun b =>
      if b then checkRowTypes typeList (j + 1) vs else .err

/-- the rows after the first, `plan/builders.go:599-606` -/
def checkRows (typeList : List Ty) : List (List Expr) → Res Unit
  | [] => .ok ()
  | row :: rows => checkRowTypes typeList 0 row >>= fun _ => checkRows typeList rows

/-- `VirtualTableFromExprRemap`, `plan/builders.go:576-623` -/
def virtualTableRemap (fieldNames : List String) (remap : Option (List Int32))
    (values : List (List Expr)) : Res Rel :=
  match values with
  | [] => .err
  | first :: rest =>
    if first.length ≠ fieldNames.length then .err
    else
      checkRemap (Int32.ofNat fieldNames.length) remap >>= fun _ =>
      Res.mapL Expr.getType first >>= fun typeList =>
      checkRows typeList rest >>= fun _ =>
      .ok (.read { mapping := remap }
        { schema := { names := fieldNames, types := typeList } } (.virt values))

/-- `NamedWriteRemap`, `plan/builders.go:500-520` -/
def namedWriteRemap (input : Option Rel) (op : Int32) (names : List String) (schema : NamedStruct)
    (remap : Option (List Int32)) : Res Rel :=
  match input with
  | none => .err
  | some i =>
      i.recordType >>= fun ts => checkRemap (fieldCount ts) remap >>= fun _ =>
      .ok (.write { mapping := remap } names none schema op i .noOutput)

/-- `WriteOpCTAS`, `plan/relations.go:2256`, as a number -/
def writeOpCTAS : Int32 := 4

/-- `CreateTableAsSelectRemap`, `plan/builders.go:338-358` -/
def ctasRemap (input : Option Rel) (remap : Option (List Int32)) (names : List String)
    (schema : NamedStruct) : Res Rel :=
  match input with
  | none => .err
  | some i =>
      i.recordType >>= fun ts => checkRemap (fieldCount ts) remap >>= fun _ =>
      .ok (.write { mapping := remap } names none schema writeOpCTAS i .modifiedRecords)

/-- A builder call without its output mapping (`plan/builders.go`, the methods listed above). -/
inductive BuildCall where
  | project (input : Option Rel) (exprs : List Expr)
  | cross (left right : Option Rel)
  | fetch (input : Option Rel) (offset count : Int64)
  | filter (input : Option Rel) (cond : Expr)
  | join (left right : Option Rel) (cond post : Expr) (ty : JoinType)
  | sort (input : Option Rel) (sorts : List ESort)
  | set (op : Int32) (inputs : List (Option Rel))
  | scan (names : List String) (schema : NamedStruct)
  | virt (names : List String) (values : List (List Expr))
  | write (input : Option Rel) (op : Int32) (names : List String) (schema : NamedStruct)
  | ctas (input : Option Rel) (names : List String) (schema : NamedStruct)

/-- The call with the output mapping `m` (`plan/builders.go`, the methods listed above). -/
def BuildCall.run (m : Option (List Int32)) : BuildCall → Res Rel
  | .project i es => projectRemap i m es
  | .cross l r => crossRemap l r m
  | .fetch i o n => fetchRemap i o n m
  | .filter i e => filterRemap i e m
  | .join l r e p t => joinAndFilterRemap l r e p t m
  | .sort i ss => sortRemap i m ss
  | .set op is => setRemap op m is
  | .scan ns s => namedScanRemap ns s m
  | .virt ns vs => virtualTableRemap ns m vs
  | .write i op ns s => namedWriteRemap i op ns s m
  | .ctas i ns s => ctasRemap i m ns s

end Verif
