import Verif.Model.Expr
/-!
# Relations

Models the relation types of `plan/relations.go` as values, their output schemas
(`directOutputSchema`, `RecordType`), `GetInputs`, `Copy` and `Remap`
(`plan/common.go`, `plan/relations.go`, `types/types.go`).

A relation is a tree. Messages the code only passes through (hints, advanced extensions, masks,
`Any` details) are numbers standing for their contents. Slices are lists; what is shared in memory
is modelled in `Verif.Model.RelMem`.
-/

namespace Verif

/-- `RelCommon`, `plan/common.go:128-132`; a nil mapping is `none`. -/
structure RelCommon where
  hint : Option Nat := none
  mapping : Option (List Int32) := none
  adv : Option Nat := none
  deriving DecidableEq

/-- `NamedStruct`, `types/types.go:1690-1693`, with the fields of its `StructType`
(`types/types.go:1124-1128`). -/
structure NamedStruct where
  names : List String
  nullability : Nullability := NullabilityRequired
  variation : UInt32 := 0
  types : List Ty

/-- `baseReadRel` without the embedded `RelCommon`, `plan/relations.go:55-63`. -/
structure BaseRead where
  schema : NamedStruct
  filter : Expr := .nil
  bestEffort : Expr := .nil
  projection : Option Nat := none
  adv : Option Nat := none

/-- The file formats, `plan/relations.go:518-534`; `none` elsewhere stands for a nil format. -/
inductive FileFormat where
  | parquet
  | arrow
  | orc
  | dwrf
  | ext (detail : Nat)
  deriving DecidableEq

/-- `FileOrFiles`, `plan/relations.go:541-551`; the path type is its number
(`plan/relations.go:503-516`). -/
structure FileItem where
  pathType : Int8
  path : String
  partIndex : UInt64
  start : UInt64
  length : UInt64
  format : Option FileFormat
  deriving DecidableEq

/-- What distinguishes the read relations: `NamedTableReadRel` `plan/relations.go:205-210`,
`VirtualTableReadRel` 267-271, `ExtensionTableReadRel` 345-349, `IcebergTableReadRel` 423-428 with
`Direct` 409-413, `LocalFileReadRel` 625-630. -/
inductive ReadKind where
  | named (names : List String) (adv : Option Nat)
  | virt (values : List (List Expr))
  | extTable (detail : Option Nat)
  | iceberg (uri : String) (timestamp : Int64) (id : String) (adv : Option Nat)
  | files (items : List FileItem) (adv : Option Nat)

/-- `JoinType`, `plan/relations.go:795-809`; `other` stands for the remaining values of the
enum. -/
inductive JoinType where
  | unspecified | inner | outer | left | right | leftSemi | leftAnti | leftSingle
  | rightSemi | rightAnti | rightSingle
  | other (n : Int32)
  deriving DecidableEq

/-- `HashMergeJoinType`, `plan/relations.go:1809-1821`. -/
abbrev HashMergeJoinType := Int8

/-- `JoinKeyComparison`, `plan/relations.go:1837-1864`. -/
inductive KeyComparison where
  | nil
  | simple (t : Int32)
  | custom (ref : UInt32)
  deriving DecidableEq

/-- `ComparisonJoinKey`, `plan/relations.go:1869-1873`; the references are expressions here. -/
structure JoinKey where
  left : Expr
  right : Expr
  comparison : KeyComparison

/-- `AggregateFunction`, `expr/functions.go:770-780`. -/
structure AggFn where
  a : FnAttrs
  phase : Int32
  invocation : Int32
  args : List EArg
  sorts : List ESort

/-- `AggRelMeasure`, `plan/relations.go:1103-1106`; a nil function is `none`. -/
structure Measure where
  measure : Option AggFn
  filter : Expr

/-- `ExtensionRelDefinition`, `plan/relations.go:1571-1582`: the undecoded extension (1585-1612) or a
definition supplied by the user. Simplification: a user's `Schema` depends on its inputs through
their record types. -/
inductive ExtDef where
  | undecoded (detail : Option Nat)
  | custom (schema : List (List Ty) → List Ty) (detail : Nat)

/-- `OutputMode`, `plan/relations.go:2259-2265`. -/
inductive OutputMode where
  | unspecified | noOutput | modifiedRecords
  | other (n : Int32)
  deriving DecidableEq

/-- A value of the interface `Rel` (never nil): the read relations, `ProjectRel`
`plan/relations.go:698-704`, `JoinRel` 813-821, `CrossRel` 955-960, `FetchRel` 1026-1032,
`AggregateRel` 1127-1135, `SortRel` 1319-1325, `FilterRel` 1409-1415, `SetRel` 1500-1506,
`ExtensionSingleRel` 1614-1619, `ExtensionLeafRel` 1684-1688, `ExtensionMultiRel` 1741-1746,
`HashJoinRel` 2018-2026, `MergeJoinRel` 2135-2143, `NamedTableWriteRel` 2271-2281. -/
inductive Rel where
  | read (c : RelCommon) (b : BaseRead) (k : ReadKind)
  | project (c : RelCommon) (input : Rel) (exprs : List Expr) (adv : Option Nat)
  | join (c : RelCommon) (l r : Rel) (cond postJoinFilter : Expr) (ty : JoinType) (adv : Option Nat)
  | cross (c : RelCommon) (l r : Rel) (adv : Option Nat)
  | fetch (c : RelCommon) (input : Rel) (offset count : Int64) (adv : Option Nat)
  | aggregate (c : RelCommon) (input : Rel) (measures : List Measure) (groupExprs : List Expr)
      (groupRefs : List (List UInt32)) (adv : Option Nat)
  | sort (c : RelCommon) (input : Rel) (sorts : List ESort) (adv : Option Nat)
  | filter (c : RelCommon) (input : Rel) (cond : Expr) (adv : Option Nat)
  | set (c : RelCommon) (inputs : List Rel) (op : Int32) (adv : Option Nat)
  | extSingle (c : RelCommon) (input : Rel) (d : ExtDef)
  | extLeaf (c : RelCommon) (d : ExtDef)
  | extMulti (c : RelCommon) (inputs : List Rel) (d : ExtDef)
  | hashJoin (c : RelCommon) (l r : Rel) (keys : List JoinKey) (postJoinFilter : Expr)
      (ty : HashMergeJoinType) (adv : Option Nat)
  | mergeJoin (c : RelCommon) (l r : Rel) (keys : List JoinKey) (postJoinFilter : Expr)
      (ty : HashMergeJoinType) (adv : Option Nat)
  | write (c : RelCommon) (names : List String) (adv : Option Nat) (schema : NamedStruct)
      (op : Int32) (input : Rel) (mode : OutputMode)

/-- The embedded `RelCommon` of each relation (`plan/common.go:126-132`). -/
def Rel.common : Rel → RelCommon
  | .read c _ _ | .project c _ _ _ | .join c _ _ _ _ _ _ | .cross c _ _ _ | .fetch c _ _ _ _
  | .aggregate c _ _ _ _ _ | .sort c _ _ _ | .filter c _ _ _ | .set c _ _ _ | .extSingle c _ _
  | .extLeaf c _ | .extMulti c _ _ | .hashJoin c _ _ _ _ _ _ | .mergeJoin c _ _ _ _ _ _
  | .write c _ _ _ _ _ _ => c

/-- The relation with another `RelCommon`. -/
def Rel.withCommon (c : RelCommon) : Rel → Rel
  | .read _ b k => .read c b k
  | .project _ i es a => .project c i es a
  | .join _ l r e p t a => .join c l r e p t a
  | .cross _ l r a => .cross c l r a
  | .fetch _ i o n a => .fetch c i o n a
  | .aggregate _ i ms es rs a => .aggregate c i ms es rs a
  | .sort _ i ss a => .sort c i ss a
  | .filter _ i e a => .filter c i e a
  | .set _ is op a => .set c is op a
  | .extSingle _ i d => .extSingle c i d
  | .extLeaf _ d => .extLeaf c d
  | .extMulti _ is d => .extMulti c is d
  | .hashJoin _ l r ks p t a => .hashJoin c l r ks p t a
  | .mergeJoin _ l r ks p t a => .mergeJoin c l r ks p t a
  | .write _ ns a s op i m => .write c ns a s op i m

/-- `setMapping`, `plan/common.go:169-171` -/
def Rel.setMapping (m : Option (List Int32)) (r : Rel) : Rel :=
  r.withCommon { r.common with mapping := m }

/-- `OutputMapping`, `plan/common.go:159-167` (a copy; its contents here) -/
def Rel.outputMapping (r : Rel) : Option (List Int32) := r.common.mapping

/-! ## Output schemas -/

/-- `RecordType.FieldCount`, `types/types.go:1803-1805` -/
def fieldCount (ts : List Ty) : Int32 := Int32.ofNat ts.length

/-- `RelCommon.remap`, `plan/common.go:145-157`; `GetFieldRef` is `types/types.go:1799-1801` -/
def RelCommon.remap (c : RelCommon) (ts : List Ty) : Res (List Ty) :=
  match c.mapping with
  | none => .ok ts
  | some m => Res.mapL (fun i : Int32 => Res.index ts i.toInt) m

/-- `m.measure.GetType()` in `plan/relations.go:1146-1148` -/
def Measure.getType (m : Measure) : Res Ty :=
  match m.measure with
  | none => .panic
  | some f => .ok f.a.outputType

/-- the columns of `AggregateRel.directOutputSchema`, `plan/relations.go:1137-1151` -/
def aggregateColumns (ms : List Measure) (es : List Expr) (refs : List (List UInt32)) :
    Res (List Ty) :=
  Res.mapL (fun g : List UInt32 =>
      Res.mapL (fun e : UInt32 => Res.index es e.toNat >>= Expr.getType) g) refs >>= fun gs =>
    Res.mapL Measure.getType ms >>= fun ts => .ok (gs.flatten ++ ts)

/-- `t.WithNullability(types.NullabilityNullable)`, `plan/relations.go:833,841,848` -/
def asNullable (t : Ty) : Ty := t.withNullability NullabilityNullable

mutual
/-- The `directOutputSchema` methods: `plan/relations.go:94-96` (reads), 706-715 (project), 823-858
(join; `JoinedRecordType` 864-866, `Concat` `types/types.go:1815-1817`), 962-964 (cross), 1034
(fetch), 1137-1151 (aggregate), 1327 (sort), 1417 (filter), 1508 (set), 1621-1623, 1690-1692,
1748-1750 (extensions, with 1590-1601 for undecoded ones), 2028-2030 (hash join), 2145-2147 (merge
join), 2283-2293 (write). Every call `x.RecordType()` on an input is
`x.directOutputSchema >>= x.common.remap` here, see `Rel.recordType`. -/
def Rel.directOutputSchema : Rel → Res (List Ty)
  | .read _ b _ => .ok b.schema.types
  | .project _ i es _ =>
      (i.directOutputSchema >>= i.common.remap) >>= fun ts =>
      Res.mapL Expr.getType es >>= fun us => .ok (ts ++ us)
  | .join _ l r _ _ ty _ =>
      match ty with
      | .inner =>
          (l.directOutputSchema >>= l.common.remap) >>= fun ls =>
          (r.directOutputSchema >>= r.common.remap) >>= fun rs => .ok (ls ++ rs)
      | .leftSemi => l.directOutputSchema >>= l.common.remap
      | .outer =>
          (l.directOutputSchema >>= l.common.remap) >>= fun ls =>
          (r.directOutputSchema >>= r.common.remap) >>= fun rs => .ok ((ls ++ rs).map asNullable)
      | .left | .leftSingle =>
          (l.directOutputSchema >>= l.common.remap) >>= fun ls =>
          (r.directOutputSchema >>= r.common.remap) >>= fun rs => .ok (ls ++ rs.map asNullable)
      | .right | .rightSingle =>
          (l.directOutputSchema >>= l.common.remap) >>= fun ls =>
          (r.directOutputSchema >>= r.common.remap) >>= fun rs => .ok (ls.map asNullable ++ rs)
      | .leftAnti => l.directOutputSchema >>= l.common.remap
      | .rightSemi | .rightAnti => r.directOutputSchema >>= r.common.remap
      | .unspecified | .other _ => .ok []
  | .cross _ l r _ =>
      (l.directOutputSchema >>= l.common.remap) >>= fun ls =>
      (r.directOutputSchema >>= r.common.remap) >>= fun rs => .ok (ls ++ rs)
  | .fetch _ i _ _ _ => i.directOutputSchema >>= i.common.remap
  | .aggregate _ _ ms es refs _ => aggregateColumns ms es refs
  | .sort _ i _ _ => i.directOutputSchema >>= i.common.remap
  | .filter _ i _ _ => i.directOutputSchema >>= i.common.remap
  | .set _ is _ _ =>
      match is with
      | [] => .panic
      | i :: _ => i.directOutputSchema >>= i.common.remap
  | .extSingle _ i d =>
      (i.directOutputSchema >>= i.common.remap) >>= fun ts =>
      match d with
      | .undecoded _ => .ok ts
      | .custom f _ => .ok (f [ts])
  | .extLeaf _ d =>
      match d with
      | .undecoded _ => .ok []
      | .custom f _ => .ok (f [])
  | .extMulti _ is d =>
      match d with
      | .undecoded _ =>
          match is with
          | [i] => i.directOutputSchema >>= i.common.remap
          | _ => .ok []
      | .custom f _ => Rel.recordTypes is >>= fun tss => .ok (f tss)
  | .hashJoin _ l r _ _ _ _ =>
      (l.directOutputSchema >>= l.common.remap) >>= fun ls =>
      (r.directOutputSchema >>= r.common.remap) >>= fun rs => .ok (ls ++ rs)
  | .mergeJoin _ l r _ _ _ _ =>
      (l.directOutputSchema >>= l.common.remap) >>= fun ls =>
      (r.directOutputSchema >>= r.common.remap) >>= fun rs => .ok (ls ++ rs)
  | .write _ _ _ s _ _ mode =>
      match mode with
      | .noOutput => .ok []
      | .modifiedRecords => .ok s.types
      | .unspecified => .panic
      | .other _ => .ok []
/-- the record types of a list of inputs (for a user's `Schema(inputs)`,
`plan/relations.go:1748-1750`) -/
def Rel.recordTypes : List Rel → Res (List (List Ty))
  | [] => .ok []
  | i :: is =>
      (i.directOutputSchema >>= i.common.remap) >>= fun ts =>
      Rel.recordTypes is >>= fun tss => .ok (ts :: tss)
end

/-- The `RecordType` methods: `plan/relations.go:98-100,218-220,434-436,716-718,860-862,965-967,
1035-1037,1153-1155,1328-1330,1418-1420,1509-1511,1625-1627,1693-1695,1751-1753,2032-2034,2149-2151,
2295-2297` -/
def Rel.recordType (r : Rel) : Res (List Ty) := r.directOutputSchema >>= r.common.remap

/-! ## Inputs, copies, remapping -/

/-- The `GetInputs` methods: `plan/relations.go:136-138,756-758,916-918,1000-1002,1076-1078,
1211-1213,1367-1369,1453-1455,1548-1550,1659-1661,1724-1726,1788-1790,2098-2100,2215-2217,
2340-2342` -/
def Rel.getInputs : Rel → List Rel
  | .read _ _ _ => []
  | .project _ i _ _ => [i]
  | .join _ l r _ _ _ _ => [l, r]
  | .cross _ l r _ => [l, r]
  | .fetch _ i _ _ _ => [i]
  | .aggregate _ i _ _ _ _ => [i]
  | .sort _ i _ _ => [i]
  | .filter _ i _ _ => [i]
  | .set _ is _ _ => is
  | .extSingle _ i _ => [i]
  | .extLeaf _ _ => []
  | .extMulti _ is _ => is
  | .hashJoin _ l r _ _ _ _ => [l, r]
  | .mergeJoin _ l r _ _ _ _ => [l, r]
  | .write _ _ _ _ _ i _ => [i]

/-- The value returned by the `Copy` methods: `plan/relations.go:245-247,304-306,375-377,481-483,
674-676` (reads, the inputs are ignored), 760-767, 920-927, 1004-1011, 1080-1087, 1215-1222,
1371-1378, 1457-1464, 1552-1556, 1663-1670, 1728-1730, 1792-1796, 2102-2109, 2219-2226,
2344-2351 -/
def Rel.copy (r : Rel) (ins : List Rel) : Res Rel :=
  match r, ins with
  | .read c b k, _ => .ok (.read c b k)
  | .project c _ es a, [i] => .ok (.project c i es a)
  | .join c _ _ e p t a, [l, r] => .ok (.join c l r e p t a)
  | .cross c _ _ a, [l, r] => .ok (.cross c l r a)
  | .fetch c _ o n a, [i] => .ok (.fetch c i o n a)
  | .aggregate c _ ms es rs a, [i] => .ok (.aggregate c i ms es rs a)
  | .sort c _ ss a, [i] => .ok (.sort c i ss a)
  | .filter c _ e a, [i] => .ok (.filter c i e a)
  | .set c _ op a, is => .ok (.set c is op a)
  | .extSingle c _ d, [i] => .ok (.extSingle c i d)
  | .extLeaf c d, _ => .ok (.extLeaf c d)
  | .extMulti c _ d, is => .ok (.extMulti c is d)
  | .hashJoin c _ _ ks p t a, [l, r] => .ok (.hashJoin c l r ks p t a)
  | .mergeJoin c _ _ ks p t a, [l, r] => .ok (.mergeJoin c l r ks p t a)
  | .write c ns a s op _ m, [i] => .ok (.write c ns a s op i m)
  | _, _ => .err

/-- Does `Copy` return its receiver (`return n, nil`: `plan/relations.go:246,305,376,482,675,1729`)
rather than a new object? -/
def Rel.copyIsReceiver : Rel → Bool
  | .read _ _ _ => true
  | .extLeaf _ _ => true
  | _ => false

/-- `isSequentialFromZero`, `plan/relations.go:162-169`, from position `x` on -/
def isSequentialFrom : Nat → List Int32 → Bool
  | _, [] => true
  | x, i :: is => if i ≠ Int32.ofNat x then false else isSequentialFrom (x + 1) is

/-- the loop of `RemapHelper`, `plan/relations.go:184-193` -/
def remapLoop (nOutput : Int32) (old : List Int32) : List Int32 → Res (List Int32)
  | [] => .ok []
  | idx :: m =>
      if idx < 0 ∨ nOutput ≤ idx then .err
      else
        (if old.length > 0 then Res.index old idx.toInt else .ok idx) >>= fun i =>
        remapLoop nOutput old m >>= fun is => .ok (i :: is)

/-- The relation returned by `RemapHelper`, `plan/relations.go:172-200` (every `Remap` method calls
it). -/
def Rel.remap (r : Rel) (mapping : List Int32) : Res Rel :=
  r.copy r.getInputs >>= fun new =>
  if mapping.length = 0 then .ok (new.setMapping (some []))
  else
    r.recordType >>= fun out =>
    remapLoop (fieldCount out) (r.outputMapping.getD []) mapping >>= fun m =>
    r.directOutputSchema >>= fun direct =>
    if (m.length : Int) = (fieldCount direct).toInt ∧ isSequentialFrom 0 m = true then
      .ok (new.setMapping none)
    else .ok (new.setMapping (some m))

/-- The receiver after `r.Remap(mapping)`: `newRel.setMapping` (`plan/relations.go:178,195,197`)
writes to the object returned by `Copy`, which for some relations is the receiver. -/
def Rel.receiverAfterRemap (r : Rel) (mapping : List Int32) : Rel :=
  match r.remap mapping with
  | .ok new => if r.copyIsReceiver then new else r
  | _ => r

end Verif
