import Verif.Model.RelProto
import Verif.Model.Plan
/-!
# Vocabulary for writing: what has a message

Each predicate says that nothing a message needs is missing. They are read off the structure of the
values only; nothing here mentions how messages look.
-/

namespace Verif

mutual
/-- The type is not one of those without a message (an enumeration argument, the type of
`IntervalYearToMonthLiteral`, a *pointer* to an interval_compound type), and neither is a type inside
it; no type parameter is nil. -/
def Ty.Writable : Ty → Prop
  | .intervalCompound pointer _ _ _ => pointer = false
  | .intervalYearToMonth _ _ => False
  | .enum .. => False
  | .struct _ _ ts => Ty.WritableList ts
  | .func _ ps r => Ty.WritableList ps ∧ r.Writable
  | .list _ _ t => t.Writable
  | .map _ _ k e => k.Writable ∧ e.Writable
  | .udt _ _ _ ps => TParam.WritableList ps
  | _ => True
/-- ... each type of a list -/
def Ty.WritableList : List Ty → Prop
  | [] => True
  | t :: ts => t.Writable ∧ Ty.WritableList ts
/-- ... a type parameter -/
def TParam.Writable : TParam → Prop
  | .nil => False
  | .dataType t => t.Writable
  | _ => True
/-- ... each type parameter of a list -/
def TParam.WritableList : List TParam → Prop
  | [] => True
  | p :: ps => p.Writable ∧ TParam.WritableList ps
end

/-- A type given as an argument of a function; here a pointer to an interval_compound type will do. -/
def Ty.WritableArg : Ty → Prop
  | .intervalCompound _ _ _ _ => True
  | t => t.Writable

/-- A value held as a message is of the kind its type says (if that is one of the kinds held so). -/
def ProtoVal.KindOf (t : Ty) (v : ProtoVal) : Prop :=
  match t with
  | .udt _ _ _ ps =>
      TParam.WritableList ps ∧ ((∃ url b, v = .udt (.value url b)) ∨ ∃ fs, v = .udt (.struct fs))
  | .prim .intervalYear _ _ => ∃ y m, v = .intervalYearToMonth y m
  | .prec .intervalDay _ _ _ => ∃ d, v = .intervalDayToSecond d
  | .prec _ _ _ _ => ∃ i, v = .int64 i
  | .fixed .varChar _ _ _ => ∃ s, v = .string s
  | .decimal _ _ _ _ => ∃ b, v = .bytes b
  | _ => True

mutual
/-- The literal is there, and so is everything inside it; its value is of a kind that has a message;
the types of nulls, empty lists and empty maps have one. -/
def Lit.Writable : Lit → Prop
  | .nil => False
  | .null t => t.Writable
  | .prim v _ => v ≠ .other
  | .bytes _ _ _ => True
  | .struct fs _ => Lit.WritableList fs
  | .list vs t => Lit.WritableList vs ∧ (vs = [] → t.Writable)
  | .map kvs t => KeyValue.WritableList kvs ∧ (kvs = [] → t.Writable)
  | .proto v t => v.KindOf t
  | .intervalYearToMonth _ _ _ => True
  | .intervalCompound _ _ _ _ _ _ _ => True
/-- ... each literal of a list -/
def Lit.WritableList : List Lit → Prop
  | [] => True
  | l :: ls => l.Writable ∧ Lit.WritableList ls
/-- ... each entry of a map -/
def KeyValue.WritableList : List KeyValue → Prop
  | [] => True
  | .mk k v :: kvs => k.Writable ∧ v.Writable ∧ KeyValue.WritableList kvs
end

/-- The map keys of a chain of steps can be written. -/
def Seg.KeysWritable : Seg → Prop
  | .nil => True
  | .mapKey k c => k.Writable ∧ c.KeysWritable
  | .structField _ c => c.KeysWritable
  | .listElement _ c => c.KeysWritable

/-- A reference without steps, with at least one step, or a mask. -/
def ERef.Writable : ERef → Prop
  | .nil => True
  | .seg s => s ≠ .nil ∧ s.KeysWritable
  | .mask _ => True

/-- The relation of a subquery can be written. -/
def RelRef.Writable (reg : Reg) (r : RelRef) : Prop := ∃ m, reg.relTo r = .ok m

mutual
/-- The expression is there, and so is everything inside it except else branches; its types, literals
and subqueries can be written. -/
def Expr.Writable (reg : Reg) : Expr → Prop
  | .nil => False
  | .lit l => l.Writable
  | .fieldRef root ref _ => ref.Writable ∧ ERoot.Writable reg root
  | .ifThen ifs els => EPair.WritableList reg ifs ∧ Expr.WritableOpt reg els
  | .cast ty input _ => ty.Writable ∧ Expr.Writable reg input
  | .dynParam ty _ => ty.Writable
  | .switch m ifs els =>
      Expr.Writable reg m ∧ ECase.WritableList reg ifs ∧ Expr.WritableOpt reg els
  | .singularOr v os => Expr.Writable reg v ∧ Expr.WritableList reg os
  | .multiOr v os => Expr.WritableList reg v ∧ ERow.WritableList reg os
  | .mapE _ _ kvs => EPair.WritableList reg kvs
  | .structE _ _ fs => Expr.WritableList reg fs
  | .listE _ _ vs => Expr.WritableList reg vs
  | .scalar a args => a.outputType.Writable ∧ EArg.WritableList reg args
  | .window a _ args sorts parts =>
      a.outputType.Writable ∧ EArg.WritableList reg args ∧ ESort.WritableList reg sorts ∧
        Expr.WritableList reg parts
  | .lambda _ _ ps body => Ty.WritableList ps ∧ Expr.Writable reg body
  | .scalarSubquery r => r.Writable reg
  | .inPredicate ns r => Expr.WritableList reg ns ∧ r.Writable reg
  | .setPredicate _ r => r.Writable reg
  | .setComparison _ _ l r => Expr.Writable reg l ∧ ∃ x, r = some x ∧ x.Writable reg
/-- ... or absent -/
def Expr.WritableOpt (reg : Reg) : Expr → Prop
  | .nil => True
  | e => Expr.Writable reg e
/-- ... each expression of a list -/
def Expr.WritableList (reg : Reg) : List Expr → Prop
  | [] => True
  | e :: es => Expr.Writable reg e ∧ Expr.WritableList reg es
/-- ... each pair -/
def EPair.WritableList (reg : Reg) : List EPair → Prop
  | [] => True
  | .mk a b :: es => Expr.Writable reg a ∧ Expr.Writable reg b ∧ EPair.WritableList reg es
/-- ... each case of a switch -/
def ECase.WritableList (reg : Reg) : List ECase → Prop
  | [] => True
  | .mk l e :: es => l.Writable ∧ Expr.Writable reg e ∧ ECase.WritableList reg es
/-- ... each option of a multi-or-list -/
def ERow.WritableList (reg : Reg) : List ERow → Prop
  | [] => True
  | .mk es :: rs => Expr.WritableList reg es ∧ ERow.WritableList reg rs
/-- ... the root of a reference; a nil expression stands for the row -/
def ERoot.Writable (reg : Reg) : ERoot → Prop
  | .expr e => Expr.WritableOpt reg e
  | _ => True
/-- ... an argument -/
def EArg.Writable (reg : Reg) : EArg → Prop
  | .nil => False
  | .expr e => Expr.Writable reg e
  | .type t => t.WritableArg
  | .enum _ => True
/-- ... each argument -/
def EArg.WritableList (reg : Reg) : List EArg → Prop
  | [] => True
  | a :: as => EArg.Writable reg a ∧ EArg.WritableList reg as
/-- ... each sort field; its kind may be missing -/
def ESort.WritableList (reg : Reg) : List ESort → Prop
  | [] => True
  | .mk e _ :: es => Expr.Writable reg e ∧ ESort.WritableList reg es
end

/-- The expressions of a virtual table can be written. -/
def ReadKind.Writable (reg : Reg) : ReadKind → Prop
  | .virt rows => ∀ row ∈ rows, Expr.WritableList reg row
  | _ => True

/-- A measure has a function; its parts can be written. -/
def Measure.Writable (reg : Reg) (m : Measure) : Prop :=
  ∃ f, m.measure = some f ∧ f.a.outputType.Writable ∧ EArg.WritableList reg f.args ∧
    ESort.WritableList reg f.sorts ∧ m.filter.WritableOpt reg

/-- One side of a join key is a field reference that can be written. -/
def Expr.RefWritable (reg : Reg) (e : Expr) : Prop :=
  ∃ root ref known, e = .fieldRef root ref known ∧ ref.Writable ∧ root.Writable reg

/-- Both sides of a join key can be written, and it says how to compare. -/
def JoinKey.Writable (reg : Reg) (k : JoinKey) : Prop :=
  k.left.RefWritable reg ∧ k.right.RefWritable reg ∧ k.comparison ≠ .nil

mutual
/-- The types and expressions of the relation and of its inputs can be written. -/
def Rel.Writable (reg : Reg) : Rel → Prop
  | .read _ b k =>
      Ty.WritableList b.schema.types ∧ b.filter.WritableOpt reg ∧ b.bestEffort.WritableOpt reg ∧
        k.Writable reg
  | .project _ i es _ => i.Writable reg ∧ Expr.WritableList reg es
  | .join _ l r e p _ _ =>
      l.Writable reg ∧ r.Writable reg ∧ e.Writable reg ∧ p.WritableOpt reg
  | .cross _ l r _ => l.Writable reg ∧ r.Writable reg
  | .fetch _ i _ _ _ => i.Writable reg
  | .aggregate _ i ms es _ _ =>
      i.Writable reg ∧ Expr.WritableList reg es ∧ ∀ m ∈ ms, m.Writable reg
  | .sort _ i ss _ => i.Writable reg ∧ ESort.WritableList reg ss
  | .filter _ i e _ => i.Writable reg ∧ e.Writable reg
  | .set _ is _ _ => Rel.WritableList reg is
  | .extSingle _ i _ => i.Writable reg
  | .extLeaf _ _ => True
  | .extMulti _ is _ => Rel.WritableList reg is
  | .hashJoin _ l r ks p _ _ =>
      l.Writable reg ∧ r.Writable reg ∧ (∀ k ∈ ks, k.Writable reg) ∧ p.WritableOpt reg
  | .mergeJoin _ l r ks p _ _ =>
      l.Writable reg ∧ r.Writable reg ∧ (∀ k ∈ ks, k.Writable reg) ∧ p.WritableOpt reg
  | .write _ _ _ s _ i _ => Ty.WritableList s.types ∧ i.Writable reg
/-- ... each relation of a list -/
def Rel.WritableList (reg : Reg) : List Rel → Prop
  | [] => True
  | r :: rs => r.Writable reg ∧ Rel.WritableList reg rs
end

/-- An entry of a plan is a root or a relation, and can be written (the relation beside a root is not
written, see `C76_negation`). -/
def Relation.Writable (reg : Reg) (r : Relation) : Prop :=
  match r.root with
  | some x => x.input.Writable reg
  | none => ∃ x, r.rel = some x ∧ x.Writable reg

/-- All entries of a plan and the values of its parameters can be written. -/
def Plan.Writable (reg : Reg) (p : Plan) : Prop :=
  (∀ r ∈ p.relations, r.Writable reg) ∧ ∀ b ∈ p.bindings, b.value.Writable

end Verif
