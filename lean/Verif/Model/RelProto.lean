import Verif.Model.ExprProto
import Verif.Model.Aggregate
/-!
# Relations and their protobuf form

Models `RelFromProto` and `decodeExtensionDef` (`plan/plan.go:434-933`), `fromProtoReadRel` and the
`ToProto` methods of all relations (`plan/relations.go`), `fromProtoCommon` and `toProto`
(`plan/common.go:134-143,187-204`), the join keys of hash and merge joins
(`plan/relations.go:1823-2013`), aggregate functions (`expr/functions.go:808-869,946-978`) and
`NamedStruct` (`types/types.go:1695-1720`).

Simplifications as in `Verif.Model.ExprProto`: nil entries of repeated fields and oneof wrappers
around a nil message are not represented. Slices are lists: nil and empty are the same, except for
the output mapping, where the code tells them apart. Join keys are not nil.
-/

namespace Verif

/-- What reading and writing a relation asks of its surroundings. -/
structure RelReg extends Reg where
  /-- `ExtensionRelDecoderFor` and the decoder it returns (`plan/plan.go:434-446`): nothing is
  registered for the detail's type URL (`ok none`), it decodes the detail, or it fails -/
  decodeExt : Option Nat → Res (Option ExtDef)
  /-- which objects are shared, for the comparison of legacy grouping expressions -/
  sh : Sharing

/-! ## Messages -/

/-- `proto.RelCommon` by its `EmitKind` (`plan/common.go:138,193-201`); the output mapping is nil or
a list. -/
inductive EmitMsg where
  | unset
  | direct
  | emit (mapping : Option (List Int32))
  deriving DecidableEq

/-- `proto.RelCommon` (`plan/common.go:188-191`) -/
structure CommonMsg where
  hint : Option Nat
  adv : Option Nat
  emit : EmitMsg
  deriving DecidableEq

/-- `proto.NamedStruct` (`types/types.go:1716-1719`); the struct is nil, or nullability, variation and
types. -/
structure NamedStructMsg where
  names : List String
  struct : Option (Nullability × UInt32 × List PTy)

/-- The `PathType` oneof of `proto.ReadRel_LocalFiles_FileOrFiles` (`plan/relations.go:557-566`) -/
inductive PathMsg where
  | unset
  | uriPath (s : String)
  | uriPathGlob (s : String)
  | uriFile (s : String)
  | uriFolder (s : String)
  deriving DecidableEq

/-- `proto.ReadRel_LocalFiles_FileOrFiles` (`plan/relations.go:582-622`); an unset format is
`none`. -/
structure FileMsg where
  path : PathMsg
  partIndex : UInt64
  start : UInt64
  length : UInt64
  format : Option FileFormat
  deriving DecidableEq

/-- The `Snapshot` oneof (`plan/plan.go:500-504`) -/
inductive SnapshotMsg where
  | unset
  | id (s : String)
  | timestamp (t : Int64)
  deriving DecidableEq

/-- The `ReadType` oneof of `proto.ReadRel` (`plan/plan.go:453-513`); the table type of an Iceberg
table is nil or `Direct`. -/
inductive ReadTypeMsg where
  | unset
  | named (names : List String) (adv : Option Nat)
  | virt (values : List (List PLit)) (expressions : List (List ExprMsg))
  | extTable (detail : Option Nat)
  | iceberg (direct : Option (String × SnapshotMsg))
  | files (items : List FileMsg) (adv : Option Nat)

/-- `proto.AggregateFunction` (`expr/functions.go:968-976`) -/
structure AggMsg where
  ref : UInt32
  options : List (String × List String)
  out : Option PTy
  phase : Int32
  invocation : Int32
  args : List ArgMsg
  sorts : List SortMsg

/-- `proto.AggregateRel_Measure` (`plan/relations.go:1116-1124`); the function may be nil -/
structure MeasureMsg where
  measure : Option AggMsg
  filter : ExprMsg

/-- `proto.AggregateRel_Grouping` (`plan/plan.go:588-601`): expressions in the legacy form,
references in the current one -/
structure GroupingMsg where
  legacy : List ExprMsg
  refs : List UInt32

/-- `proto.Expression_FieldReference`, or nil -/
abbrev FieldRefMsg := Option (RootMsg × RefMsg)

/-- The `InnerType` oneof of `proto.ComparisonJoinKey_ComparisonType`
(`plan/relations.go:1956-1965`) -/
inductive ComparisonMsg where
  | unset
  | simple (t : Int32)
  | custom (ref : UInt32)
  deriving DecidableEq

/-- `proto.ComparisonJoinKey` (`plan/relations.go:1890-1894`) -/
structure JoinKeyMsg where
  left : FieldRefMsg
  right : FieldRefMsg
  comparison : ComparisonMsg

/-- The `WriteType` oneof of `proto.WriteRel` (`plan/plan.go:917-923`) -/
inductive WriteTypeMsg where
  | unset
  | named (names : List String) (adv : Option Nat)
  | extTable

/-- `*proto.Rel`, by its `RelType` (cases of `plan/plan.go:451-932`) -/
inductive RelMsg where
  /-- nil message -/
  | nil
  /-- no `RelType` -/
  | unset
  /-- a relation type the library does not read -/
  | other
  | read (c : Option CommonMsg) (schema : Option NamedStructMsg) (filter bestEffort : ExprMsg)
      (projection : Option Nat) (adv : Option Nat) (k : ReadTypeMsg)
  | project (c : Option CommonMsg) (input : RelMsg) (exprs : List ExprMsg) (adv : Option Nat)
  | join (c : Option CommonMsg) (l r : RelMsg) (cond post : ExprMsg) (ty : JoinType)
      (adv : Option Nat)
  | cross (c : Option CommonMsg) (l r : RelMsg) (adv : Option Nat)
  /-- offset and count are oneofs that may be unset -/
  | fetch (c : Option CommonMsg) (input : RelMsg) (offset count : Option Int64) (adv : Option Nat)
  | aggregate (c : Option CommonMsg) (input : RelMsg) (exprs : List ExprMsg)
      (groupings : List GroupingMsg) (measures : List MeasureMsg) (adv : Option Nat)
  | sort (c : Option CommonMsg) (input : RelMsg) (sorts : List SortMsg) (adv : Option Nat)
  | filter (c : Option CommonMsg) (input : RelMsg) (cond : ExprMsg) (adv : Option Nat)
  | set (c : Option CommonMsg) (inputs : List RelMsg) (op : Int32) (adv : Option Nat)
  | extSingle (c : Option CommonMsg) (input : RelMsg) (detail : Option Nat)
  | extLeaf (c : Option CommonMsg) (detail : Option Nat)
  | extMulti (c : Option CommonMsg) (inputs : List RelMsg) (detail : Option Nat)
  | hashJoin (c : Option CommonMsg) (l r : RelMsg) (keys : List JoinKeyMsg)
      (leftKeys rightKeys : List FieldRefMsg) (post : ExprMsg) (ty : Int32) (adv : Option Nat)
  | mergeJoin (c : Option CommonMsg) (l r : RelMsg) (keys : List JoinKeyMsg)
      (leftKeys rightKeys : List FieldRefMsg) (post : ExprMsg) (ty : Int32) (adv : Option Nat)
  | write (c : Option CommonMsg) (k : WriteTypeMsg) (schema : Option NamedStructMsg) (op : Int32)
      (input : RelMsg) (output : OutputMode)

/-! ## Writing -/

/-- `RelCommon.toProto`, `plan/common.go:187-203` -/
def RelCommon.toMsg (c : RelCommon) : CommonMsg :=
  match c.mapping with
  | none => ⟨c.hint, c.adv, .direct⟩
  | some m => ⟨c.hint, c.adv, .emit (some m)⟩

/-- `NamedStruct.ToProto`, `types/types.go:1715-1720`, with `StructType.ToProto` 1170-1180 -/
def NamedStruct.toMsg (s : NamedStruct) : Res NamedStructMsg :=
  Res.mapL typeToProto s.types >>= fun ts =>
  .ok ⟨s.names, some (s.nullability, s.variation, ts)⟩

/-- `FileOrFiles.ToProto`, `plan/relations.go:582-622`. Path types are numbered
`plan/relations.go:505-516`; other numbers write no path. -/
def FileItem.toMsg (f : FileItem) : FileMsg :=
  let path : PathMsg :=
    if f.pathType = 0 then .uriPath f.path
    else if f.pathType = 1 then .uriPathGlob f.path
    else if f.pathType = 2 then .uriFile f.path
    else if f.pathType = 3 then .uriFolder f.path
    else .unset
  ⟨path, f.partIndex, f.start, f.length, f.format⟩

/-- The snapshot written by `IcebergTableReadRel.ToProto`, `plan/relations.go:454-463` -/
def snapshotToMsg (timestamp : Int64) (id : String) : SnapshotMsg :=
  if id ≠ "" then .id id
  else if timestamp ≠ 0 then .timestamp timestamp
  else .unset

/-- The read type written by the `ToProto` methods of the reads: `plan/relations.go:232-237` (named),
279-288 (virtual, with `VirtualTableExpressionValue.ToProto` `expr/expression.go:1731-1739`),
355-359 (extension), 449-471 (Iceberg), 647-658 (files) -/
def ReadKind.toMsg (reg : Reg) : ReadKind → Res ReadTypeMsg
  | .named names adv => .ok (.named names adv)
  | .virt values =>
      Res.mapL (Expr.toProtoList reg) values >>= fun rows => .ok (.virt [] rows)
  | .extTable detail => .ok (.extTable detail)
  | .iceberg uri timestamp id _ => .ok (.iceberg (some (uri, snapshotToMsg timestamp id)))
  | .files items adv => .ok (.files (items.map FileItem.toMsg) adv)

/-- `AggregateFunction.ToProto`, `expr/functions.go:946-978` -/
def AggFn.toMsg (reg : Reg) (f : AggFn) : Res AggMsg :=
  EArg.toProtoList reg f.args >>= fun args =>
  ESort.toProtoList reg f.sorts >>= fun sorts =>
  typeToProto f.a.outputType >>= fun t =>
  .ok ⟨f.a.funcRef, f.a.options, some t, f.phase, f.invocation, args, sorts⟩

/-- `AggRelMeasure.ToProto`, `plan/relations.go:1116-1124`; a nil function panics -/
def Measure.toMsg (reg : Reg) (m : Measure) : Res MeasureMsg :=
  match m.measure with
  | none => .panic
  | some f =>
      f.toMsg reg >>= fun f => Expr.optToProto reg m.filter >>= fun e => .ok ⟨some f, e⟩

/-- `ToProtoFieldRef`, `expr/field_reference.go:648-685`; on a nil pointer it panics. Join keys are
of type `*FieldReference`, so there are no other expressions. -/
def fieldRefToMsg (reg : Reg) : Expr → Res FieldRefMsg
  | .fieldRef root ref _ =>
      refToProto reg ref >>= fun r => ERoot.toProto reg root >>= fun t => .ok (some (t, r))
  | _ => .panic

/-- `toProto` of comparisons, `plan/relations.go:1846-1864`; on nil it panics -/
def KeyComparison.toMsg : KeyComparison → Res ComparisonMsg
  | .nil => .panic
  | .simple t => .ok (.simple t)
  | .custom r => .ok (.custom r)

/-- `ComparisonJoinKey.ToProto`, `plan/relations.go:1889-1895` -/
def JoinKey.toMsg (reg : Reg) (k : JoinKey) : Res JoinKeyMsg :=
  fieldRefToMsg reg k.left >>= fun l => fieldRefToMsg reg k.right >>= fun r =>
  k.comparison.toMsg >>= fun c => .ok ⟨l, r, c⟩

/-- `SimpleComparisonTypeEq` (`plan/relations.go:1829`) -/
def comparisonEq : Int32 := 1

/-- the first loop of `tryEqualityJoinKeysToLegacyProto`, `plan/relations.go:1914-1927` -/
def allEquality (keys : List JoinKey) : Bool :=
  keys.all fun k => k.comparison == .simple comparisonEq

/-- `tryEqualityJoinKeysToLegacyProto`, `plan/relations.go:1913-1935`, as used in
`plan/relations.go:2077-2080,2194-2197`: no legacy keys unless all keys compare for equality -/
def legacyKeys (reg : Reg) (keys : List JoinKey) : Res (List FieldRefMsg × List FieldRefMsg) :=
  if allEquality keys then
    Res.mapL (fun k : JoinKey =>
      fieldRefToMsg reg k.left >>= fun l => fieldRefToMsg reg k.right >>= fun r => .ok (l, r)) keys
      >>= fun lrs => .ok (lrs.map Prod.fst, lrs.map Prod.snd)
  else .ok ([], [])

/-- `Detail`, `plan/relations.go:1632-1634,1698-1700,1757-1759`: `Build` of the definition -/
def ExtDef.detail : ExtDef → Option Nat
  | .undecoded d => d
  | .custom _ d => some d

mutual
/-- The `ToProto` methods: reads (`toReadRelProto` `plan/relations.go:112-131` and `ReadKind.toMsg`),
project 730-746, join 887-908, cross 979-990, fetch 1050-1066, aggregate 1171-1202, sort 1342-1357,
filter 1432-1443, set 1523-1538, extensions 1639-1649, 1705-1714, 1764-1778, hash join 2065-2089, merge
join 2182-2206, write 2313-2330 (the output mode is not written). Simplification: parts are written in
the order given here; the order matters only for which of several panics happens. -/
def Rel.toProto (reg : Reg) : Rel → Res RelMsg
  | .read c b k =>
      b.schema.toMsg >>= fun s =>
      Expr.optToProto reg b.filter >>= fun f =>
      Expr.optToProto reg b.bestEffort >>= fun be =>
      k.toMsg reg >>= fun k =>
      .ok (.read (some c.toMsg) (some s) f be (b.projection.map reg.maskTo) b.adv k)
  | .project c i es adv =>
      Expr.toProtoList reg es >>= fun es =>
      i.toProto reg >>= fun i => .ok (.project (some c.toMsg) i es adv)
  | .join c l r e p t adv =>
      l.toProto reg >>= fun l => r.toProto reg >>= fun r =>
      e.toProto reg >>= fun e => Expr.optToProto reg p >>= fun p =>
      .ok (.join (some c.toMsg) l r e p t adv)
  | .cross c l r adv =>
      l.toProto reg >>= fun l => r.toProto reg >>= fun r => .ok (.cross (some c.toMsg) l r adv)
  | .fetch c i o n adv =>
      i.toProto reg >>= fun i => .ok (.fetch (some c.toMsg) i (some o) (some n) adv)
  | .aggregate c i ms es refs adv =>
      Expr.toProtoList reg es >>= fun es =>
      Res.mapL (Measure.toMsg reg) ms >>= fun ms =>
      i.toProto reg >>= fun i =>
      .ok (.aggregate (some c.toMsg) i es (refs.map fun r => ⟨[], r⟩) ms adv)
  | .sort c i ss adv =>
      ESort.toProtoList reg ss >>= fun ss =>
      i.toProto reg >>= fun i => .ok (.sort (some c.toMsg) i ss adv)
  | .filter c i e adv =>
      i.toProto reg >>= fun i => e.toProto reg >>= fun e => .ok (.filter (some c.toMsg) i e adv)
  | .set c is op adv =>
      Rel.toProtoList reg is >>= fun is => .ok (.set (some c.toMsg) is op adv)
  | .extSingle c i d =>
      i.toProto reg >>= fun i => .ok (.extSingle (some c.toMsg) i d.detail)
  | .extLeaf c d => .ok (.extLeaf (some c.toMsg) d.detail)
  | .extMulti c is d =>
      Rel.toProtoList reg is >>= fun is => .ok (.extMulti (some c.toMsg) is d.detail)
  | .hashJoin c l r ks p t adv =>
      l.toProto reg >>= fun l => r.toProto reg >>= fun r =>
      Res.mapL (JoinKey.toMsg reg) ks >>= fun kms =>
      legacyKeys reg ks >>= fun lr => Expr.optToProto reg p >>= fun p =>
      .ok (.hashJoin (some c.toMsg) l r kms lr.1 lr.2 p t.toInt32 adv)
  | .mergeJoin c l r ks p t adv =>
      l.toProto reg >>= fun l => r.toProto reg >>= fun r =>
      Res.mapL (JoinKey.toMsg reg) ks >>= fun kms =>
      legacyKeys reg ks >>= fun lr => Expr.optToProto reg p >>= fun p =>
      .ok (.mergeJoin (some c.toMsg) l r kms lr.1 lr.2 p t.toInt32 adv)
  | .write c names adv s op i _ =>
      s.toMsg >>= fun s => i.toProto reg >>= fun i =>
      .ok (.write (some c.toMsg) (.named names adv) (some s) op i .unspecified)
/-- the loops of `plan/relations.go:1524-1527,1765-1768` -/
def Rel.toProtoList (reg : Reg) : List Rel → Res (List RelMsg)
  | [] => .ok []
  | r :: rs => r.toProto reg >>= fun m => Rel.toProtoList reg rs >>= fun ms => .ok (m :: ms)
end

/-! ## Reading -/

/-- `fromProtoCommon`, `plan/common.go:134-143`; a nil message panics -/
def commonFromProto : Option CommonMsg → Res RelCommon
  | none => .panic
  | some c =>
      match c.emit with
      | .emit m => .ok ⟨c.hint, m, c.adv⟩
      | _ => .ok ⟨c.hint, none, c.adv⟩

/-- `if rel.Common != nil { out.fromProtoCommon(rel.Common) }`, e.g. `plan/plan.go:537-539` -/
def commonFromProto? : Option CommonMsg → Res RelCommon
  | none => .ok {}
  | some c => commonFromProto (some c)

/-- `NewNamedStructFromProto`, `types/types.go:1695-1713`; a nil struct panics -/
def namedStructFromProto : Option NamedStructMsg → Res NamedStruct
  | none => .ok ⟨[], 0, 0, []⟩
  | some m =>
      match m.struct with
      | none => .panic
      | some (n, v, ts) => Res.mapL typeFromProto ts >>= fun ts => .ok ⟨m.names, n, v, ts⟩

/-- `FileOrFiles.fromProto` on a fresh item, `plan/relations.go:553-580`; no path leaves the path
type 0 -/
def fileFromProto (m : FileMsg) : FileItem :=
  let path : Int8 × String :=
    match m.path with
    | .unset => (0, "")
    | .uriPath s => (0, s)
    | .uriPathGlob s => (1, s)
    | .uriFile s => (2, s)
    | .uriFolder s => (3, s)
  ⟨path.1, path.2, m.partIndex, m.start, m.length, m.format⟩

/-- `if m != nil { x, err = ExprFromProto(m) }`, e.g. `plan/relations.go:72-77` -/
def Expr.optFromProto (reg : Reg) (base : Option (List Ty)) (m : ExprMsg) : Res Expr :=
  if m.isNil then .ok .nil else Expr.fromProto reg base m

/-- The switch over `ReadType`, `plan/plan.go:453-513`, with `VirtualTableExprFromLiteralProto` and
`VirtualTableExpressionFromProto` (`plan/internal/helper.go:8-26`) -/
def readTypeFromProto (reg : Reg) : ReadTypeMsg → Res ReadKind
  | .unset => .err
  | .extTable d => .ok (.extTable d)
  | .files items adv => .ok (.files (items.map fileFromProto) adv)
  | .named names adv => .ok (.named names adv)
  | .virt values exprs =>
      if values.length > 0 ∧ exprs.length > 0 then .err
      else
        Res.mapL (fun row => Res.mapL literalFromProto row >>= fun ls => .ok (ls.map Expr.ofLit))
          values >>= fun vs =>
        Res.mapL (Expr.fromProtoList reg none) exprs >>= fun es => .ok (.virt (vs ++ es))
  | .iceberg none => .err
  | .iceberg (some (uri, .unset)) => .ok (.iceberg uri 0 "" none)
  | .iceberg (some (uri, .id s)) => .ok (.iceberg uri 0 s none)
  | .iceberg (some (uri, .timestamp t)) => .ok (.iceberg uri t "" none)

/-- The function of a measure, `expr/functions.go:851-862` with `NewCustomAggregateFunc` 808-826. A
function without a registered declaration is built without any; the declaration `""` stands for
that nil pointer. -/
def resolveAgg (reg : Reg) (ref : UInt32) : Res (UInt32 × String) :=
  match reg.decodeFunc ref with
  | none => .err
  | some id =>
    match reg.aggregate ref with
    | none => reg.custom id >>= fun r => .ok (r.1, "")
    | some decl => .ok (ref, decl)

/-- `NewAggregateFunctionFromProto`, `expr/functions.go:828-869`; a nil message panics -/
def aggFromProto (reg : Reg) (base : Option (List Ty)) : Option AggMsg → Res AggFn
  | none => .panic
  | some m =>
      match m.out with
      | none => .err
      | some out =>
        EArg.fromProtoList reg base m.args >>= fun args =>
        ESort.fromProtoList reg base m.sorts >>= fun sorts =>
        resolveAgg reg m.ref >>= fun f =>
        typeFromProto out >>= fun t =>
        .ok ⟨⟨f.1, f.2, m.options, t⟩, m.phase, m.invocation, args, sorts⟩

/-- the loop body for measures, `plan/plan.go:607-618` -/
def measureFromProto (reg : Reg) (base : Option (List Ty)) (m : MeasureMsg) : Res Measure :=
  aggFromProto reg base m.measure >>= fun f =>
  Expr.optFromProto reg base m.filter >>= fun e => .ok ⟨some f, e⟩

/-- the groupings, `plan/plan.go:578-604`: expressions and references -/
noncomputable def groupingsFromProto (reg : RelReg) (base : Option (List Ty)) (exprs : List ExprMsg)
    (groupings : List GroupingMsg) : Res (List Expr × List (List UInt32)) :=
  if exprs.length > 0 then
    Expr.fromProtoList reg.toReg base exprs >>= fun es => .ok (es, groupings.map GroupingMsg.refs)
  else
    Res.mapL (fun g : GroupingMsg => Expr.fromProtoList reg.toReg base g.legacy) groupings
      >>= fun gs => groupingExprs reg.sh gs

/-- `FieldReferenceFromProto`, `expr/field_reference.go:762-806`; a nil message panics -/
def fieldRefFromProto (reg : Reg) (base : Option (List Ty)) : FieldRefMsg → Res Expr
  | none => .panic
  | some (root, ref) => Expr.fromProto reg base (.selection root ref)

/-- `joinKeyComparisonFromProto`, `plan/relations.go:1956-1965` -/
def comparisonFromProto : ComparisonMsg → Res KeyComparison
  | .unset => .err
  | .simple t => .ok (.simple t)
  | .custom r => .ok (.custom r)

/-- the loop body for keys, `plan/relations.go:1979-1993` -/
def joinKeyFromProto (reg : Reg) (ls rs : List Ty) (k : JoinKeyMsg) : Res JoinKey :=
  fieldRefFromProto reg (some ls) k.left >>= fun l =>
  fieldRefFromProto reg (some rs) k.right >>= fun r =>
  comparisonFromProto k.comparison >>= fun c => .ok ⟨l, r, c⟩

/-- `comparisonJoinKeysFromProto`, `plan/relations.go:1970-2013` -/
def joinKeysFromProto (reg : Reg) (ls rs : List Ty) (keys : List JoinKeyMsg)
    (leftKeys rightKeys : List FieldRefMsg) : Res (List JoinKey) :=
  if keys.length > 0 then Res.mapL (joinKeyFromProto reg ls rs) keys
  else if leftKeys.length ≠ rightKeys.length then .err
  else
    Res.mapL (fun p : FieldRefMsg × FieldRefMsg =>
      fieldRefFromProto reg (some ls) p.1 >>= fun l =>
      fieldRefFromProto reg (some rs) p.2 >>= fun r => .ok ⟨l, r, .simple comparisonEq⟩)
      (leftKeys.zip rightKeys)

/-- `decodeExtensionDef`, `plan/plan.go:434-446` -/
def decodeExtensionDef (reg : RelReg) (detail : Option Nat) : Res ExtDef :=
  reg.decodeExt detail >>= fun d =>
  match d with
  | some d => .ok d
  | none => .ok (.undecoded detail)

/-- the loop over the further inputs of a set, `plan/plan.go:743-749` -/
def setInputsSame (primary : List Ty) : List Rel → Res Unit
  | [] => .ok ()
  | i :: is =>
      i.recordType >>= fun ts => recordTypeEquals ts primary >>= fun b =>
      if b then setInputsSame primary is else .err

/-- The operations a write can have, `plan/plan.go:916` -/
def writeOpRead (op : Int32) : Bool := op == 4 || op == 1 || op == 2

mutual
/-- `RelFromProto`, `plan/plan.go:449-933`, with `fromProtoReadRel` `plan/relations.go:65-92` -/
noncomputable def Rel.fromProto (reg : RelReg) : RelMsg → Res Rel
  | .nil => .panic
  | .unset => .err
  | .other => .err
  | .read c schema flt best proj adv k =>
      readTypeFromProto reg.toReg k >>= fun k =>
      commonFromProto? c >>= fun c =>
      namedStructFromProto schema >>= fun s =>
      Expr.optFromProto reg.toReg (some s.types) flt >>= fun f =>
      Expr.optFromProto reg.toReg (some s.types) best >>= fun be =>
      .ok (.read c ⟨s, f, be, proj.map reg.maskFrom, adv⟩ k)
  | .filter c i e adv =>
      Rel.fromProto reg i >>= fun i => i.recordType >>= fun base =>
      Expr.fromProto reg.toReg (some base) e >>= fun e =>
      commonFromProto? c >>= fun c => .ok (.filter c i e adv)
  | .fetch c i o n adv =>
      Rel.fromProto reg i >>= fun i =>
      match o, n with
      | some o, some n => commonFromProto? c >>= fun c => .ok (.fetch c i o n adv)
      | _, _ => .err
  | .aggregate c i es gs ms adv =>
      Rel.fromProto reg i >>= fun i => i.recordType >>= fun base =>
      groupingsFromProto reg (some base) es gs >>= fun g =>
      Res.mapL (measureFromProto reg.toReg (some base)) ms >>= fun ms =>
      commonFromProto c >>= fun c => .ok (.aggregate c i ms g.1 g.2 adv)
  | .sort c i ss adv =>
      Rel.fromProto reg i >>= fun i => i.recordType >>= fun base =>
      ESort.fromProtoList reg.toReg (some base) ss >>= fun ss =>
      if ss.length = 0 then .err
      else commonFromProto c >>= fun c => .ok (.sort c i ss adv)
  | .join c l r e p t adv =>
      if t = .unspecified then .err
      else
        Rel.fromProto reg l >>= fun l => Rel.fromProto reg r >>= fun r =>
        commonFromProto c >>= fun c =>
        l.recordType >>= fun ls => r.recordType >>= fun rs =>
        Expr.fromProto reg.toReg (some (ls ++ rs)) e >>= fun e =>
        Expr.optFromProto reg.toReg (some (ls ++ rs)) p >>= fun p => .ok (.join c l r e p t adv)
  | .project c i es adv =>
      Rel.fromProto reg i >>= fun i => i.recordType >>= fun base =>
      Expr.fromProtoList reg.toReg (some base) es >>= fun es =>
      if es.length = 0 then .err
      else commonFromProto? c >>= fun c => .ok (.project c i es adv)
  | .set c is op adv =>
      if is.length < 2 then .err
      else
        Rel.fromProtoList reg is >>= fun is =>
        if op = 0 then .err
        else
          match is with
          | [] => .panic
          | i :: rest =>
            i.recordType >>= fun primary => setInputsSame primary rest >>= fun _ =>
            commonFromProto c >>= fun c => .ok (.set c (i :: rest) op adv)
  | .extSingle c i d =>
      Rel.fromProto reg i >>= fun i => decodeExtensionDef reg d >>= fun d =>
      commonFromProto c >>= fun c => .ok (.extSingle c i d)
  | .extMulti c is d =>
      Rel.fromProtoList reg is >>= fun is => decodeExtensionDef reg d >>= fun d =>
      commonFromProto c >>= fun c => .ok (.extMulti c is d)
  | .extLeaf c d =>
      decodeExtensionDef reg d >>= fun d => commonFromProto c >>= fun c => .ok (.extLeaf c d)
  | .cross c l r adv =>
      Rel.fromProto reg l >>= fun l => Rel.fromProto reg r >>= fun r =>
      commonFromProto c >>= fun c => .ok (.cross c l r adv)
  | .hashJoin c l r ks lks rks p t adv =>
      Rel.fromProto reg l >>= fun l => Rel.fromProto reg r >>= fun r =>
      l.recordType >>= fun ls => r.recordType >>= fun rs =>
      joinKeysFromProto reg.toReg ls rs ks lks rks >>= fun ks =>
      commonFromProto c >>= fun c =>
      if p.isNil then .ok (.hashJoin c l r ks .nil t.toInt8 adv)
      else
        (Rel.hashJoin c l r ks .nil t.toInt8 adv).recordType >>= fun base =>
        Expr.fromProto reg.toReg (some base) p >>= fun p => .ok (.hashJoin c l r ks p t.toInt8 adv)
  | .mergeJoin c l r ks lks rks p t adv =>
      Rel.fromProto reg l >>= fun l => Rel.fromProto reg r >>= fun r =>
      l.recordType >>= fun ls => r.recordType >>= fun rs =>
      joinKeysFromProto reg.toReg ls rs ks lks rks >>= fun ks =>
      commonFromProto c >>= fun c =>
      if p.isNil then .ok (.mergeJoin c l r ks .nil t.toInt8 adv)
      else
        (Rel.mergeJoin c l r ks .nil t.toInt8 adv).recordType >>= fun base =>
        Expr.fromProto reg.toReg (some base) p >>= fun p => .ok (.mergeJoin c l r ks p t.toInt8 adv)
  | .write c k schema op i output =>
      Rel.fromProto reg i >>= fun i => namedStructFromProto schema >>= fun s =>
      commonFromProto? c >>= fun c =>
      if writeOpRead op then
        match k with
        | .named names adv => .ok (.write c names adv s op i output)
        | .extTable => .err
        | .unset => .ok (.write c [] none s op i output)
      else .err
/-- the loops of `plan/plan.go:731-736,778-784` -/
noncomputable def Rel.fromProtoList (reg : RelReg) : List RelMsg → Res (List Rel)
  | [] => .ok []
  | m :: ms =>
      Rel.fromProto reg m >>= fun r => Rel.fromProtoList reg ms >>= fun rs => .ok (r :: rs)
end

/-! ## Bytes -/

/-- What `proto.Marshal` and `proto.Unmarshal` make of a common part: an empty repeated field is not
written, and reading leaves the slice nil (assumed of the protobuf runtime; used by
`plan/common.go:138-139`). -/
def CommonMsg.overWire (c : CommonMsg) : CommonMsg :=
  match c.emit with
  | .emit (some []) => { c with emit := .emit none }
  | _ => c

mutual
/-- ... of a relation message: its own common part and those of its inputs. Everything else of a
message is the same after `proto.Marshal` and `proto.Unmarshal` as far as it is represented here
(entry point `plan/plan.go:449`). -/
def RelMsg.overWire : RelMsg → RelMsg
  | .nil => .nil
  | .unset => .unset
  | .other => .other
  | .read c s f b p a k => .read (c.map CommonMsg.overWire) s f b p a k
  | .project c i es a => .project (c.map CommonMsg.overWire) i.overWire es a
  | .join c l r e p t a => .join (c.map CommonMsg.overWire) l.overWire r.overWire e p t a
  | .cross c l r a => .cross (c.map CommonMsg.overWire) l.overWire r.overWire a
  | .fetch c i o n a => .fetch (c.map CommonMsg.overWire) i.overWire o n a
  | .aggregate c i es gs ms a => .aggregate (c.map CommonMsg.overWire) i.overWire es gs ms a
  | .sort c i ss a => .sort (c.map CommonMsg.overWire) i.overWire ss a
  | .filter c i e a => .filter (c.map CommonMsg.overWire) i.overWire e a
  | .set c is op a => .set (c.map CommonMsg.overWire) (RelMsg.overWireList is) op a
  | .extSingle c i d => .extSingle (c.map CommonMsg.overWire) i.overWire d
  | .extLeaf c d => .extLeaf (c.map CommonMsg.overWire) d
  | .extMulti c is d => .extMulti (c.map CommonMsg.overWire) (RelMsg.overWireList is) d
  | .hashJoin c l r ks lk rk p t a =>
      .hashJoin (c.map CommonMsg.overWire) l.overWire r.overWire ks lk rk p t a
  | .mergeJoin c l r ks lk rk p t a =>
      .mergeJoin (c.map CommonMsg.overWire) l.overWire r.overWire ks lk rk p t a
  | .write c k s op i o => .write (c.map CommonMsg.overWire) k s op i.overWire o
/-- ... of each relation of a list (`plan/plan.go:731`) -/
def RelMsg.overWireList : List RelMsg → List RelMsg
  | [] => []
  | m :: ms => m.overWire :: RelMsg.overWireList ms
end

/-! ## Accessors of aggregate functions -/

/-- `AggregateFunction.Name`, `expr/functions.go:871`: a nil declaration (`""`) is dereferenced -/
def AggFn.name (f : AggFn) : Res String :=
  if f.a.declaration = "" then .panic else .ok f.a.declaration

end Verif
