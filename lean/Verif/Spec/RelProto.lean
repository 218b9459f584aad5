import Verif.Model.RelProto
import Verif.Spec.ExprProto
/-!
# Vocabulary for relation round trips: what a message can carry
-/

namespace Verif

/-- The expression is absent or can be carried. -/
def Expr.NilOrSendable (reg : Reg) (base : Option (List Ty)) (e : Expr) : Prop :=
  e = .nil ∨ e.Sendable reg base

/-- The path type is one of the four defined ones. -/
def FileItem.Sendable (f : FileItem) : Prop :=
  f.pathType = 0 ∨ f.pathType = 1 ∨ f.pathType = 2 ∨ f.pathType = 3

/-- What distinguishes a read can be carried: expressions of virtual tables refer to no row; an
Iceberg table has at most one kind of snapshot and no extension of its own. -/
def ReadKind.Sendable (reg : Reg) : ReadKind → Prop
  | .virt rows => ∀ row ∈ rows, Expr.SendableList reg none row
  | .iceberg _ timestamp id adv => adv = none ∧ (timestamp = 0 ∨ id = "")
  | .files items _ => ∀ f ∈ items, f.Sendable
  | _ => True

/-- An aggregate function with an anchor in the registry: it has the declaration registered there,
or none when there is none (then its anchor is the one of its id). -/
def AggFn.DeclaredIn (reg : Reg) (f : AggFn) : Prop :=
  ∃ id, reg.decodeFunc f.a.funcRef = some id ∧
    (reg.aggregate f.a.funcRef = some f.a.declaration ∨
      (reg.aggregate f.a.funcRef = none ∧ (∃ name, reg.custom id = .ok (f.a.funcRef, name)) ∧
        f.a.declaration = ""))

/-- A measure that can be carried, over rows of type `base`. -/
def Measure.Sendable (reg : Reg) (base : Option (List Ty)) (m : Measure) : Prop :=
  (∃ f, m.measure = some f ∧ f.DeclaredIn reg ∧ f.a.outputType.Sendable ∧
    EArg.SendableList reg base f.args ∧ ESort.SendableList reg base f.sorts) ∧
  m.filter.NilOrSendable reg base

/-- A field reference that can be carried. -/
def Expr.RefSendable (reg : Reg) (base : Option (List Ty)) (e : Expr) : Prop :=
  (∃ root ref known, e = .fieldRef root ref known) ∧ e.Sendable reg base

/-- A join key that can be carried: its left side refers to the left input, its right side to the
right one, and it says how to compare. -/
def JoinKey.Sendable (reg : Reg) (ls rs : List Ty) (k : JoinKey) : Prop :=
  k.left.RefSendable reg (some ls) ∧ k.right.RefSendable reg (some rs) ∧ k.comparison ≠ .nil

/-- The definition of an extension relation is what decoding its detail gives. -/
def ExtDef.Sendable (reg : RelReg) : ExtDef → Prop
  | .undecoded d => reg.decodeExt d = .ok none
  | .custom f d => reg.decodeExt (some d) = .ok (some (.custom f d))

mutual
/-- A relation a message can carry: all inputs can be carried and have a row type; expressions can be
carried and refer to the rows they are evaluated on; masks survive. Lists that must not be empty are
not. A write has no output mode and an operation that can be read (insert, delete, create table as
select). Grouping references without grouping expressions refer to nothing. -/
def Rel.Sendable (reg : RelReg) : Rel → Prop
  | .read _ b k =>
      (∀ t ∈ b.schema.types, t.Sendable) ∧
      b.filter.NilOrSendable reg.toReg (some b.schema.types) ∧
      b.bestEffort.NilOrSendable reg.toReg (some b.schema.types) ∧
      (∀ p, b.projection = some p → reg.maskFrom (reg.maskTo p) = p) ∧
      k.Sendable reg.toReg
  | .project _ i es _ =>
      i.Sendable reg ∧ es ≠ [] ∧
      ∃ ts, i.recordType = .ok ts ∧ Expr.SendableList reg.toReg (some ts) es
  | .join _ l r e p ty _ =>
      l.Sendable reg ∧ r.Sendable reg ∧ ty ≠ .unspecified ∧
      ∃ ls rs, l.recordType = .ok ls ∧ r.recordType = .ok rs ∧
        e.Sendable reg.toReg (some (ls ++ rs)) ∧ p.NilOrSendable reg.toReg (some (ls ++ rs))
  | .cross _ l r _ => l.Sendable reg ∧ r.Sendable reg
  | .fetch _ i _ _ _ => i.Sendable reg
  | .aggregate _ i ms es refs _ =>
      i.Sendable reg ∧ (es = [] → ∀ g ∈ refs, g = []) ∧
      ∃ ts, i.recordType = .ok ts ∧ Expr.SendableList reg.toReg (some ts) es ∧
        ∀ m ∈ ms, m.Sendable reg.toReg (some ts)
  | .sort _ i ss _ =>
      i.Sendable reg ∧ ss ≠ [] ∧
      ∃ ts, i.recordType = .ok ts ∧ ESort.SendableList reg.toReg (some ts) ss
  | .filter _ i e _ =>
      i.Sendable reg ∧ ∃ ts, i.recordType = .ok ts ∧ e.Sendable reg.toReg (some ts)
  | .set _ is op _ =>
      Rel.SendableList reg is ∧ 2 ≤ is.length ∧ op ≠ 0 ∧
      ∃ ts, ∀ i ∈ is, ∃ us, i.recordType = .ok us ∧ Ty.PlanTypeList us ∧
        Ty.eraseList us = Ty.eraseList ts
  | .extSingle _ i d => i.Sendable reg ∧ d.Sendable reg
  | .extLeaf _ d => d.Sendable reg
  | .extMulti _ is d => Rel.SendableList reg is ∧ d.Sendable reg
  | .hashJoin c l r ks p _ _ =>
      l.Sendable reg ∧ r.Sendable reg ∧
      ∃ ls rs, l.recordType = .ok ls ∧ r.recordType = .ok rs ∧
        (∀ k ∈ ks, k.Sendable reg.toReg ls rs) ∧
        (p = .nil ∨ ∃ ts, c.remap (ls ++ rs) = .ok ts ∧ p.Sendable reg.toReg (some ts))
  | .mergeJoin c l r ks p _ _ =>
      l.Sendable reg ∧ r.Sendable reg ∧
      ∃ ls rs, l.recordType = .ok ls ∧ r.recordType = .ok rs ∧
        (∀ k ∈ ks, k.Sendable reg.toReg ls rs) ∧
        (p = .nil ∨ ∃ ts, c.remap (ls ++ rs) = .ok ts ∧ p.Sendable reg.toReg (some ts))
  | .write _ _ _ s op i mode =>
      i.Sendable reg ∧ (∀ t ∈ s.types, t.Sendable) ∧ (op = 1 ∨ op = 2 ∨ op = 4) ∧
        mode = .unspecified
/-- ... for each relation of a list -/
def Rel.SendableList (reg : RelReg) : List Rel → Prop
  | [] => True
  | r :: rs => r.Sendable reg ∧ Rel.SendableList reg rs
end

mutual
/-- No relation of the tree has an empty output mapping (no columns at all). -/
def Rel.NoEmptyMapping : Rel → Prop
  | .read c _ _ => c.mapping ≠ some []
  | .project c i _ _ => c.mapping ≠ some [] ∧ i.NoEmptyMapping
  | .join c l r _ _ _ _ => c.mapping ≠ some [] ∧ l.NoEmptyMapping ∧ r.NoEmptyMapping
  | .cross c l r _ => c.mapping ≠ some [] ∧ l.NoEmptyMapping ∧ r.NoEmptyMapping
  | .fetch c i _ _ _ => c.mapping ≠ some [] ∧ i.NoEmptyMapping
  | .aggregate c i _ _ _ _ => c.mapping ≠ some [] ∧ i.NoEmptyMapping
  | .sort c i _ _ => c.mapping ≠ some [] ∧ i.NoEmptyMapping
  | .filter c i _ _ => c.mapping ≠ some [] ∧ i.NoEmptyMapping
  | .set c is _ _ => c.mapping ≠ some [] ∧ Rel.NoEmptyMappingList is
  | .extSingle c i _ => c.mapping ≠ some [] ∧ i.NoEmptyMapping
  | .extLeaf c _ => c.mapping ≠ some []
  | .extMulti c is _ => c.mapping ≠ some [] ∧ Rel.NoEmptyMappingList is
  | .hashJoin c l r _ _ _ _ => c.mapping ≠ some [] ∧ l.NoEmptyMapping ∧ r.NoEmptyMapping
  | .mergeJoin c l r _ _ _ _ => c.mapping ≠ some [] ∧ l.NoEmptyMapping ∧ r.NoEmptyMapping
  | .write c _ _ _ _ i _ => c.mapping ≠ some [] ∧ i.NoEmptyMapping
/-- ... of a list of trees -/
def Rel.NoEmptyMappingList : List Rel → Prop
  | [] => True
  | r :: rs => r.NoEmptyMapping ∧ Rel.NoEmptyMappingList rs
end

/-! ## What a message says -/

/-- Everything a relation states besides its inputs, expressions and types. -/
structure RelSays where
  kind : String
  /-- hint, output mapping, extension of the common part -/
  common : Option Nat × Option (List Int32) × Option Nat
  adv : Option Nat := none
  /-- table name, column names, nullability and variation of the row -/
  table : List String := []
  columns : List String := []
  row : Nullability × UInt32 := (0, 0)
  tableAdv : Option Nat := none
  detail : Option Nat := none
  uri : String := ""
  snapshotId : Option String := none
  snapshotTime : Option Int64 := none
  /-- path kind, path, partition, start, length, format -/
  files : List (String × String × UInt64 × UInt64 × UInt64 × Option FileFormat) := []
  /-- lengths of the rows of a virtual table -/
  rows : List Nat := []
  joinType : JoinType := .unspecified
  hashMergeType : Int := 0
  offset : Int64 := 0
  count : Int64 := 0
  groups : List (List UInt32) := []
  /-- numbers of expressions, and of parts that may be absent -/
  counts : List Nat := []
  measures : List Says := []
  filtered : List Bool := []
  sorts : List (String × Int) := []
  comparisons : List (String × Int) := []
  op : Int32 := 0

/-- ... of a common part -/
def RelCommon.says (c : RelCommon) : Option Nat × Option (List Int32) × Option Nat :=
  (c.hint, c.mapping, c.adv)

/-- ... of its message -/
def CommonMsg.says : Option CommonMsg → Option Nat × Option (List Int32) × Option Nat
  | none => (none, none, none)
  | some c =>
    (c.hint, match c.emit with
      | .emit m => m
      | _ => none, c.adv)

/-- ... of a file -/
def FileItem.says (f : FileItem) :
    String × String × UInt64 × UInt64 × UInt64 × Option FileFormat :=
  ((if f.pathType = 0 then "path" else if f.pathType = 1 then "glob"
    else if f.pathType = 2 then "file" else if f.pathType = 3 then "folder" else "none"),
   (if f.pathType = 0 ∨ f.pathType = 1 ∨ f.pathType = 2 ∨ f.pathType = 3 then f.path else ""),
   f.partIndex, f.start, f.length, f.format)

/-- ... of its message -/
def FileMsg.says (f : FileMsg) : String × String × UInt64 × UInt64 × UInt64 × Option FileFormat :=
  match f.path with
  | .unset => ("none", "", f.partIndex, f.start, f.length, f.format)
  | .uriPath s => ("path", s, f.partIndex, f.start, f.length, f.format)
  | .uriPathGlob s => ("glob", s, f.partIndex, f.start, f.length, f.format)
  | .uriFile s => ("file", s, f.partIndex, f.start, f.length, f.format)
  | .uriFolder s => ("folder", s, f.partIndex, f.start, f.length, f.format)

/-- How a key compares. -/
def KeyComparison.says : KeyComparison → String × Int
  | .nil => ("none", 0)
  | .simple t => ("simple", t.toInt)
  | .custom r => ("custom", r.toNat)

/-- ... of its message -/
def ComparisonMsg.says : ComparisonMsg → String × Int
  | .unset => ("none", 0)
  | .simple t => ("simple", t.toInt)
  | .custom r => ("custom", r.toNat)

/-- ... of an aggregate function -/
def AggFn.says (f : AggFn) : Says :=
  { funcRef := f.a.funcRef, options := f.a.options, args := f.args.map EArg.says, phase := f.phase,
    invocation := f.invocation, sorts := f.sorts.map ESort.says }

/-- ... of its message -/
def AggMsg.says (f : AggMsg) : Says :=
  { funcRef := f.ref, options := f.options, args := f.args.map ArgMsg.says, phase := f.phase,
    invocation := f.invocation, sorts := f.sorts.map SortMsg.says }

/-- ... of a measure's function -/
def Measure.says (m : Measure) : Says :=
  match m.measure with
  | some f => f.says
  | none => {}

/-- ... of its message -/
def MeasureMsg.says (m : MeasureMsg) : Says :=
  match m.measure with
  | some f => f.says
  | none => {}

/-- how many of an optional expression there are -/
def Expr.present (e : Expr) : Nat := if e.isNil then 0 else 1
/-- ... of a message -/
def ExprMsg.present (e : ExprMsg) : Nat := if e.isNil then 0 else 1

/-- What a read states; an Iceberg snapshot is the id, or without one the time unless it is 0. -/
def BaseRead.says (c : RelCommon) (b : BaseRead) : ReadKind → RelSays
  | .named names adv =>
      { kind := "read named_table", common := c.says, adv := b.adv, columns := b.schema.names,
        row := (b.schema.nullability, b.schema.variation),
        counts := [b.schema.types.length, b.filter.present, b.bestEffort.present,
          b.projection.toList.length], table := names, tableAdv := adv }
  | .virt rows =>
      { kind := "read virtual_table", common := c.says, adv := b.adv, columns := b.schema.names,
        row := (b.schema.nullability, b.schema.variation),
        counts := [b.schema.types.length, b.filter.present, b.bestEffort.present,
          b.projection.toList.length], rows := rows.map List.length }
  | .extTable d =>
      { kind := "read extension_table", common := c.says, adv := b.adv, columns := b.schema.names,
        row := (b.schema.nullability, b.schema.variation),
        counts := [b.schema.types.length, b.filter.present, b.bestEffort.present,
          b.projection.toList.length], detail := d }
  | .iceberg uri ts id _ =>
      { kind := "read iceberg_table", common := c.says, adv := b.adv, columns := b.schema.names,
        row := (b.schema.nullability, b.schema.variation),
        counts := [b.schema.types.length, b.filter.present, b.bestEffort.present,
          b.projection.toList.length], uri,
        snapshotId := if id = "" then none else some id,
        snapshotTime := if id = "" ∧ ts ≠ 0 then some ts else none }
  | .files fs adv =>
      { kind := "read local_files", common := c.says, adv := b.adv, columns := b.schema.names,
        row := (b.schema.nullability, b.schema.variation),
        counts := [b.schema.types.length, b.filter.present, b.bestEffort.present,
          b.projection.toList.length], files := fs.map FileItem.says, tableAdv := adv }

/-- What a relation states. -/
def Rel.says : Rel → RelSays
  | .read c b k => b.says c k
  | .project c _ es adv => { kind := "project", common := c.says, adv, counts := [es.length] }
  | .join c _ _ _ p t adv =>
      { kind := "join", common := c.says, adv, joinType := t, counts := [p.present] }
  | .cross c _ _ adv => { kind := "cross", common := c.says, adv }
  | .fetch c _ offset count adv => { kind := "fetch", common := c.says, adv, offset, count }
  | .aggregate c _ ms es groups adv =>
      { kind := "aggregate", common := c.says, adv, groups, counts := [es.length],
        measures := ms.map Measure.says, filtered := ms.map fun m => !m.filter.isNil }
  | .sort c _ ss adv => { kind := "sort", common := c.says, adv, sorts := ss.map ESort.says }
  | .filter c _ _ adv => { kind := "filter", common := c.says, adv }
  | .set c _ op adv => { kind := "set", common := c.says, adv, op }
  | .extSingle c _ d => { kind := "extension_single", common := c.says, detail := d.detail }
  | .extLeaf c d => { kind := "extension_leaf", common := c.says, detail := d.detail }
  | .extMulti c _ d => { kind := "extension_multi", common := c.says, detail := d.detail }
  | .hashJoin c _ _ ks p t adv =>
      { kind := "hash_join", common := c.says, adv, hashMergeType := t.toInt,
        comparisons := ks.map fun k => k.comparison.says, counts := [p.present] }
  | .mergeJoin c _ _ ks p t adv =>
      { kind := "merge_join", common := c.says, adv, hashMergeType := t.toInt,
        comparisons := ks.map fun k => k.comparison.says, counts := [p.present] }
  | .write c names adv s op _ _ =>
      { kind := "write named_table", common := c.says, table := names, tableAdv := adv, op,
        columns := s.names, row := (s.nullability, s.variation), counts := [s.types.length] }

/-- column names, row attributes and number of types of a schema message -/
def NamedStructMsg.names? : Option NamedStructMsg → List String
  | none => []
  | some m => m.names
/-- ... row attributes -/
def NamedStructMsg.row : Option NamedStructMsg → Nullability × UInt32
  | some ⟨_, some (n, v, _)⟩ => (n, v)
  | _ => (0, 0)
/-- ... types -/
def NamedStructMsg.types : Option NamedStructMsg → List PTy
  | some ⟨_, some (_, _, ts)⟩ => ts
  | _ => []

/-- What a message states. -/
def RelMsg.says : RelMsg → RelSays
  | .nil => { kind := "nil", common := (none, none, none) }
  | .unset => { kind := "unset", common := (none, none, none) }
  | .other => { kind := "other", common := (none, none, none) }
  | .read c s f b p adv (.named names tadv) =>
      { kind := "read named_table", common := CommonMsg.says c, adv,
        columns := NamedStructMsg.names? s, row := NamedStructMsg.row s,
        counts := [(NamedStructMsg.types s).length, f.present, b.present, p.toList.length],
        table := names, tableAdv := tadv }
  | .read c s f b p adv (.virt values rows) =>
      { kind := "read virtual_table", common := CommonMsg.says c, adv,
        columns := NamedStructMsg.names? s, row := NamedStructMsg.row s,
        counts := [(NamedStructMsg.types s).length, f.present, b.present, p.toList.length],
        rows := values.map List.length ++ rows.map List.length }
  | .read c s f b p adv (.extTable detail) =>
      { kind := "read extension_table", common := CommonMsg.says c, adv,
        columns := NamedStructMsg.names? s, row := NamedStructMsg.row s,
        counts := [(NamedStructMsg.types s).length, f.present, b.present, p.toList.length], detail }
  | .read c s f b p adv (.iceberg (some (uri, snap))) =>
      { kind := "read iceberg_table", common := CommonMsg.says c, adv,
        columns := NamedStructMsg.names? s, row := NamedStructMsg.row s,
        counts := [(NamedStructMsg.types s).length, f.present, b.present, p.toList.length], uri,
        snapshotId := match snap with
          | .id s => some s
          | _ => none,
        snapshotTime := match snap with
          | .timestamp t => some t
          | _ => none }
  | .read c _ _ _ _ _ (.iceberg none) => { kind := "read iceberg_table", common := CommonMsg.says c }
  | .read c _ _ _ _ _ .unset => { kind := "read", common := CommonMsg.says c }
  | .read c s f b p adv (.files items tadv) =>
      { kind := "read local_files", common := CommonMsg.says c, adv,
        columns := NamedStructMsg.names? s, row := NamedStructMsg.row s,
        counts := [(NamedStructMsg.types s).length, f.present, b.present, p.toList.length],
        files := items.map FileMsg.says, tableAdv := tadv }
  | .project c _ es adv =>
      { kind := "project", common := CommonMsg.says c, adv, counts := [es.length] }
  | .join c _ _ _ p t adv =>
      { kind := "join", common := CommonMsg.says c, adv, joinType := t, counts := [p.present] }
  | .cross c _ _ adv => { kind := "cross", common := CommonMsg.says c, adv }
  | .fetch c _ offset count adv =>
      { kind := "fetch", common := CommonMsg.says c, adv, offset := offset.getD 0,
        count := count.getD 0 }
  | .aggregate c _ es gs ms adv =>
      { kind := "aggregate", common := CommonMsg.says c, adv, groups := gs.map GroupingMsg.refs,
        counts := [es.length], measures := ms.map MeasureMsg.says,
        filtered := ms.map fun m => !m.filter.isNil }
  | .sort c _ ss adv =>
      { kind := "sort", common := CommonMsg.says c, adv, sorts := ss.map SortMsg.says }
  | .filter c _ _ adv => { kind := "filter", common := CommonMsg.says c, adv }
  | .set c _ op adv => { kind := "set", common := CommonMsg.says c, adv, op }
  | .extSingle c _ detail => { kind := "extension_single", common := CommonMsg.says c, detail }
  | .extLeaf c detail => { kind := "extension_leaf", common := CommonMsg.says c, detail }
  | .extMulti c _ detail => { kind := "extension_multi", common := CommonMsg.says c, detail }
  | .hashJoin c _ _ ks _ _ p t adv =>
      { kind := "hash_join", common := CommonMsg.says c, adv, hashMergeType := t.toInt,
        comparisons := ks.map fun k => k.comparison.says, counts := [p.present] }
  | .mergeJoin c _ _ ks _ _ p t adv =>
      { kind := "merge_join", common := CommonMsg.says c, adv, hashMergeType := t.toInt,
        comparisons := ks.map fun k => k.comparison.says, counts := [p.present] }
  | .write c k s op _ _ =>
      { kind := match k with
          | .named _ _ => "write named_table"
          | .extTable => "write extension_table"
          | .unset => "write",
        common := CommonMsg.says c,
        table := match k with
          | .named names _ => names
          | _ => [],
        tableAdv := match k with
          | .named _ adv => adv
          | _ => none,
        op, columns := NamedStructMsg.names? s, row := NamedStructMsg.row s,
        counts := [(NamedStructMsg.types s).length] }

/-- The inputs of a relation message. -/
def RelMsg.inputs : RelMsg → List RelMsg
  | .project _ i _ _ => [i]
  | .join _ l r _ _ _ _ => [l, r]
  | .cross _ l r _ => [l, r]
  | .fetch _ i _ _ _ => [i]
  | .aggregate _ i _ _ _ _ => [i]
  | .sort _ i _ _ => [i]
  | .filter _ i _ _ => [i]
  | .set _ is _ _ => is
  | .extSingle _ i _ => [i]
  | .extMulti _ is _ => is
  | .hashJoin _ l r _ _ _ _ _ _ => [l, r]
  | .mergeJoin _ l r _ _ _ _ _ _ => [l, r]
  | .write _ _ _ _ i _ => [i]
  | _ => []

/-- the parts of a measure -/
def Measure.items (m : Measure) : List Part :=
  (match m.measure with
    | none => []
    | some f =>
        .type f.a.outputType :: f.args.flatMap EArg.items ++ f.sorts.flatMap ESort.items) ++
  m.filter.opt
/-- ... of its message -/
def MeasureMsg.items (m : MeasureMsg) : List PartMsg :=
  (match m.measure with
    | none => []
    | some f =>
        f.out.toList.map .type ++ f.args.flatMap ArgMsg.items ++ f.sorts.flatMap SortMsg.items) ++
  m.filter.opt

/-- both sides of a key -/
def JoinKey.items (k : JoinKey) : List Part := [.expr k.left, .expr k.right]
/-- a reference as an expression message -/
def FieldRefMsg.items : FieldRefMsg → List PartMsg
  | none => []
  | some (root, ref) => [.expr (.selection root ref)]
/-- ... of its message -/
def JoinKeyMsg.items (k : JoinKeyMsg) : List PartMsg :=
  FieldRefMsg.items k.left ++ FieldRefMsg.items k.right

/-- the expressions of a virtual table -/
def ReadKind.items : ReadKind → List Part
  | .virt rows => rows.flatten.map .expr
  | _ => []
/-- ... of its message -/
def ReadTypeMsg.items : ReadTypeMsg → List PartMsg
  | .virt _ rows => rows.flatten.map .expr
  | _ => []

/-- The types, expressions and masks of a relation, in order. -/
def Rel.items : Rel → List Part
  | .read _ b k =>
      b.schema.types.map .type ++ b.filter.opt ++ b.bestEffort.opt ++
        b.projection.toList.map .mask ++ k.items
  | .project _ _ es _ => es.map .expr
  | .join _ _ _ e p _ _ => .expr e :: p.opt
  | .aggregate _ _ ms es _ _ => es.map .expr ++ ms.flatMap Measure.items
  | .sort _ _ ss _ => ss.flatMap ESort.items
  | .filter _ _ e _ => [.expr e]
  | .hashJoin _ _ _ ks p _ _ => ks.flatMap JoinKey.items ++ p.opt
  | .mergeJoin _ _ _ ks p _ _ => ks.flatMap JoinKey.items ++ p.opt
  | .write _ _ _ s _ _ _ => s.types.map .type
  | _ => []

/-- ... of a message -/
def RelMsg.items : RelMsg → List PartMsg
  | .read _ s f b p _ k =>
      (NamedStructMsg.types s).map .type ++ f.opt ++ b.opt ++ p.toList.map .mask ++ k.items
  | .project _ _ es _ => es.map .expr
  | .join _ _ _ e p _ _ => .expr e :: p.opt
  | .aggregate _ _ es _ ms _ => es.map .expr ++ ms.flatMap MeasureMsg.items
  | .sort _ _ ss _ => ss.flatMap SortMsg.items
  | .filter _ _ e _ => [.expr e]
  | .hashJoin _ _ _ ks _ _ p _ _ => ks.flatMap JoinKeyMsg.items ++ p.opt
  | .mergeJoin _ _ _ ks _ _ p _ _ => ks.flatMap JoinKeyMsg.items ++ p.opt
  | .write _ _ s _ _ _ => (NamedStructMsg.types s).map .type
  | _ => []

end Verif
