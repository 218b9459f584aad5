import Verif.Model.RelProto
import Verif.Model.Plan
import Verif.Spec.Types
/-!
# Vocabulary for reading without a panic: messages that leave nothing out

Predicates on messages only; none of the reading functions is mentioned, except that relations inside
subqueries, which are opaque numbers in an expression message, are asked about through `Reg`.
-/

namespace Verif

mutual
/-- The type message has a kind everywhere, all time precisions are 0 to 9, and no type parameter is
left unset. -/
def PTy.Complete : PTy → Prop
  | .unset => False
  | .intervalDay _ _ (some p) => ValidPrecision p
  | .intervalCompound _ _ p => ValidPrecision p
  | .precisionTime _ _ p => ValidPrecision p
  | .precisionTimestamp _ _ p => ValidPrecision p
  | .precisionTimestampTz _ _ p => ValidPrecision p
  | .struct _ _ ts => PTy.CompleteList ts
  | .func _ ps r => PTy.CompleteList ps ∧ r.Complete
  | .list _ _ t => t.Complete
  | .map _ _ k e => k.Complete ∧ e.Complete
  | .udt _ _ _ ps => PParam.CompleteList ps
  | _ => True
/-- ... for each message of a list -/
def PTy.CompleteList : List PTy → Prop
  | [] => True
  | t :: ts => t.Complete ∧ PTy.CompleteList ts
/-- ... for a type parameter -/
def PParam.Complete : PParam → Prop
  | .unset => False
  | .dataType t => t.Complete
  | _ => True
/-- ... for each type parameter of a list -/
def PParam.CompleteList : List PParam → Prop
  | [] => True
  | p :: ps => p.Complete ∧ PParam.CompleteList ps
end

/-- The precision of an interval is one of 0 to 9, if it is given. -/
def DaySecond.ModeOk (d : DaySecond) : Prop := ∀ p, d.mode = .precision p → ValidPrecision p

/-- The day part of a compound interval: it says its precision, and the deprecated microseconds are
not mixed with sub-seconds. -/
def DaySecond.CompoundOk (d : DaySecond) : Prop :=
  match d.mode with
  | .unset => False
  | .microseconds _ => d.subseconds ≤ 0
  | .precision p => ValidPrecision p

mutual
/-- The literal message has a kind, here and in all nested literals; lists and maps written as such
are not empty, and empty ones say their type; types are complete; values with a time precision have
one of 0 to 9 and are not negative. -/
def PLit.Complete : PLit → Prop
  | .nil => False
  | .mk _ _ k => k.Complete
/-- ... by kind -/
def PLitKind.Complete : PLitKind → Prop
  | .unset => False
  | .intervalDayToSecond d => d.ModeOk
  | .null t => t.Complete
  | .struct fs => PLit.CompleteList fs
  | .map kvs => kvs ≠ [] ∧ PKeyValue.CompleteList kvs
  | .list vs => vs ≠ [] ∧ PLit.CompleteList vs
  | .emptyList none => False
  | .emptyList (some (_, _, t)) => t.Complete
  | .emptyMap none => False
  | .emptyMap (some (_, _, k, e)) => k.Complete ∧ e.Complete
  | .userDefined _ ps _ => PParam.CompleteList ps
  | .precisionTime p v => ValidPrecision p ∧ ¬ v < 0
  | .precisionTimestamp p v => ValidPrecision p ∧ ¬ v < 0
  | .precisionTimestampTz p v => ValidPrecision p ∧ ¬ v < 0
  | .intervalCompound _ (some d) => d.CompoundOk
  | _ => True
/-- ... for each literal of a list -/
def PLit.CompleteList : List PLit → Prop
  | [] => True
  | l :: ls => l.Complete ∧ PLit.CompleteList ls
/-- ... for each entry of a map -/
def PKeyValue.CompleteList : List PKeyValue → Prop
  | [] => True
  | .mk k v :: kvs => k.Complete ∧ v.Complete ∧ PKeyValue.CompleteList kvs
end

/-- The keys of the steps are complete literals. -/
def PSeg.KeysComplete : PSeg → Prop
  | .nil => True
  | .unset => True
  | .mapKey k c => k.Complete ∧ c.KeysComplete
  | .structField _ c => c.KeysComplete
  | .listElement _ c => c.KeysComplete

/-- There is at least one step, and the keys of the steps are complete literals. -/
def PSeg.Complete (s : PSeg) : Prop := s ≠ .nil ∧ s ≠ .unset ∧ s.KeysComplete

/-- A reference by steps has at least one. -/
def RefMsg.Complete : RefMsg → Prop
  | .direct s => s.Complete
  | _ => True

/-- The message is a reference by steps. -/
def RefMsg.IsDirect : RefMsg → Prop
  | .direct _ => True
  | _ => False

mutual
/-- The type of the expression can be told: field references are by steps, from a known row (`based`)
or another expression; conditionals have an else branch whose type can be told (a switch also cases);
maps, lists and structs have typed elements; the relation of a scalar subquery has one column. -/
def ExprMsg.Typed (reg : Reg) (based : Bool) : ExprMsg → Prop
  | .selection root ref => root.Typed based ∧ ref.IsDirect
  | .ifThen _ els => els.Typed reg based
  | .switch _ ifs els => ifs ≠ [] ∧ CaseMsg.TypedList reg based ifs ∧ els.Typed reg based
  | .mapE _ _ kvs => PairMsg.TypedList reg based kvs
  | .structE _ _ fs => ExprMsg.TypedList reg based fs
  | .listE _ _ vs => ExprMsg.TypedList reg based vs
  | .lambda _ body => body.Typed reg based
  | .scalarSubquery m => ∀ r, reg.relFrom m = .ok r → ∃ t, r.types = [t] ∧ t.PlanType
  | _ => True
/-- ... for each expression of a list -/
def ExprMsg.TypedList (reg : Reg) (based : Bool) : List ExprMsg → Prop
  | [] => True
  | e :: es => e.Typed reg based ∧ ExprMsg.TypedList reg based es
/-- ... for pairs -/
def PairMsg.TypedList (reg : Reg) (based : Bool) : List PairMsg → Prop
  | [] => True
  | .mk a b :: es => a.Typed reg based ∧ b.Typed reg based ∧ PairMsg.TypedList reg based es
/-- ... for the results of switch cases -/
def CaseMsg.TypedList (reg : Reg) (based : Bool) : List CaseMsg → Prop
  | [] => True
  | .mk _ e :: es => e.Typed reg based ∧ CaseMsg.TypedList reg based es
/-- The root is a row whose type is known, or an expression. -/
def RootMsg.Typed (based : Bool) : RootMsg → Prop
  | .unset => based = true
  | .rootReference => based = true
  | .expr _ => True
  | _ => False
end

/-- The function the reference stands for, if any, is declared, or a declaration with its name can be made
for it. -/
def Nameable (reg : Reg) (lookup : UInt32 → Option String) (ref : UInt32) : Prop :=
  ∀ id, reg.decodeFunc ref = some id → lookup ref = none → ∃ a, reg.custom id = .ok (a, id.name)

mutual
/-- Everything that is there is complete: types, literals, reference steps; the functions of calls have a
declaration or a name to make one of. Whole expressions may be
missing (reading reports that as an error), except that an expression that is the root of a reference
must have a type. -/
def ExprMsg.Safe (reg : Reg) (based : Bool) : ExprMsg → Prop
  | .nil => True
  | .unset => True
  | .lit l => l.Complete
  | .selection root ref => root.Safe reg based ∧ ref.Complete
  | .scalar ref _ out args =>
      Nameable reg reg.scalar ref ∧ (∀ t, out = some t → t.Complete) ∧ ArgMsg.SafeList reg based args
  | .window ref _ out _ args sorts parts =>
      Nameable reg reg.window ref ∧ (∀ t, out = some t → t.Complete) ∧ ArgMsg.SafeList reg based args ∧
        SortMsg.SafeList reg based sorts ∧ ExprMsg.SafeList reg based parts
  | .ifThen ifs els => PairMsg.SafeList reg based ifs ∧ els.Safe reg based
  | .switch m ifs els => m.Safe reg based ∧ CaseMsg.SafeList reg based ifs ∧ els.Safe reg based
  | .singularOr v os => v.Safe reg based ∧ ExprMsg.SafeList reg based os
  | .multiOr vs os => ExprMsg.SafeList reg based vs ∧ RowMsg.SafeList reg based os
  | .cast t e _ => (∀ t', t = some t' → t'.Complete) ∧ e.Safe reg based
  | .mapE _ _ kvs => PairMsg.SafeList reg based kvs
  | .structE _ _ fs => ExprMsg.SafeList reg based fs
  | .listE _ _ vs => ExprMsg.SafeList reg based vs
  | .dynParam t _ => t.Complete
  | .scalarSubquery m => reg.relFrom m ≠ .panic
  | .inPredicate ns m => ExprMsg.SafeList reg based ns ∧ reg.relFrom m ≠ .panic
  | .setPredicate _ m => reg.relFrom m ≠ .panic
  | .setComparison _ _ l m => l.Safe reg based ∧ reg.relFrom m ≠ .panic
  | .lambda ps body =>
      (∀ n v ts, ps = some (n, v, ts) → PTy.CompleteList ts) ∧ body.Safe reg based
/-- ... for each expression of a list -/
def ExprMsg.SafeList (reg : Reg) (based : Bool) : List ExprMsg → Prop
  | [] => True
  | e :: es => e.Safe reg based ∧ ExprMsg.SafeList reg based es
/-- ... for pairs -/
def PairMsg.SafeList (reg : Reg) (based : Bool) : List PairMsg → Prop
  | [] => True
  | .mk a b :: es => a.Safe reg based ∧ b.Safe reg based ∧ PairMsg.SafeList reg based es
/-- ... for switch cases -/
def CaseMsg.SafeList (reg : Reg) (based : Bool) : List CaseMsg → Prop
  | [] => True
  | .mk l e :: es => l.Complete ∧ e.Safe reg based ∧ CaseMsg.SafeList reg based es
/-- ... for rows of options -/
def RowMsg.SafeList (reg : Reg) (based : Bool) : List RowMsg → Prop
  | [] => True
  | .mk r :: rs => ExprMsg.SafeList reg based r ∧ RowMsg.SafeList reg based rs
/-- ... for the root of a reference -/
def RootMsg.Safe (reg : Reg) (based : Bool) : RootMsg → Prop
  | .expr e => e.Safe reg based ∧ e.Typed reg based
  | _ => True
/-- ... for a function argument -/
def ArgMsg.Safe (reg : Reg) (based : Bool) : ArgMsg → Prop
  | .type t => t.Complete
  | .value e => e.Safe reg based
  | _ => True
/-- ... for function arguments -/
def ArgMsg.SafeList (reg : Reg) (based : Bool) : List ArgMsg → Prop
  | [] => True
  | a :: as => a.Safe reg based ∧ ArgMsg.SafeList reg based as
/-- ... for sort fields -/
def SortMsg.SafeList (reg : Reg) (based : Bool) : List SortMsg → Prop
  | [] => True
  | .mk e _ :: es => e.Safe reg based ∧ SortMsg.SafeList reg based es
end

/-! ## Relations -/

/-- The struct of a schema is there and its types are complete. -/
def NamedStructMsg.Complete (s : NamedStructMsg) : Prop :=
  ∃ n v ts, s.struct = some (n, v, ts) ∧ PTy.CompleteList ts

/-- How many columns a schema has. -/
def schemaWidth (s : Option NamedStructMsg) : Nat :=
  match s with
  | some ⟨_, some (_, _, ts)⟩ => ts.length
  | _ => 0

/-- The output mapping of a common part, if there is one. -/
def commonMapping : Option CommonMsg → Option (List Int32)
  | some ⟨_, _, .emit m⟩ => m
  | _ => none

/-- How many columns the output has: as many as the mapping lists, or all `direct` ones. -/
def emitWidth (c : Option CommonMsg) (direct : Nat) : Nat :=
  match commonMapping c with
  | none => direct
  | some m => m.length

/-- How many grouping columns an aggregate has. -/
def groupingWidth (exprs : List ExprMsg) (gs : List GroupingMsg) : Nat :=
  if exprs.length > 0 then (gs.map fun g => g.refs.length).sum
  else (gs.map fun g => g.legacy.length).sum

/-- How many columns a relation has after its output mapping. -/
def RelMsg.width : RelMsg → Nat
  | .read c s _ _ _ _ _ => emitWidth c (schemaWidth s)
  | .project c i es _ => emitWidth c (i.width + es.length)
  | .join c l r _ _ ty _ => emitWidth c (match ty with
      | .inner | .outer | .left | .leftSingle | .right | .rightSingle => l.width + r.width
      | .leftSemi | .leftAnti => l.width
      | .rightSemi | .rightAnti => r.width
      | .unspecified | .other _ => 0)
  | .cross c l r _ => emitWidth c (l.width + r.width)
  | .fetch c i _ _ _ => emitWidth c i.width
  | .aggregate c _ es gs ms _ => emitWidth c (groupingWidth es gs + ms.length)
  | .sort c i _ _ => emitWidth c i.width
  | .filter c i _ _ => emitWidth c i.width
  | .set c is _ _ => emitWidth c (match is with
      | [] => 0
      | i :: _ => i.width)
  | .extSingle c i _ => emitWidth c i.width
  | .extLeaf c _ => emitWidth c 0
  | .extMulti c is _ => emitWidth c (match is with
      | [i] => i.width
      | _ => 0)
  | .hashJoin c l r _ _ _ _ _ _ => emitWidth c (l.width + r.width)
  | .mergeJoin c l r _ _ _ _ _ _ => emitWidth c (l.width + r.width)
  | .write c _ s _ _ mode => emitWidth c (match mode with
      | .modifiedRecords => schemaWidth s
      | _ => 0)
  | _ => 0

/-- Every entry of the output mapping is one of the `direct` columns. -/
def EmitInRange (c : Option CommonMsg) (direct : Nat) : Prop :=
  ∀ m, commonMapping c = some m → ∀ i ∈ m, 0 ≤ i.toInt ∧ i.toInt < direct

/-- A grouping expression of the legacy form that can be compared with any other: a field of the
row, by field numbers and list positions. -/
def PSeg.NoKeys : PSeg → Prop
  | .mapKey _ _ => False
  | .structField _ c => c.NoKeys
  | .listElement _ c => c.NoKeys
  | _ => True

/-- ... the expression: a reference into the row by at least one step -/
def ExprMsg.PlainRef : ExprMsg → Prop
  | .selection root (.direct s) =>
      (root = .unset ∨ root = .rootReference) ∧ s ≠ .nil ∧ s ≠ .unset ∧ s.NoKeys
  | _ => False

/-- The measure has a function; whatever it lists is complete. -/
def MeasureMsg.Safe (reg : Reg) (m : MeasureMsg) : Prop :=
  (∃ f, m.measure = some f ∧ Nameable reg reg.aggregate f.ref ∧ (∀ t, f.out = some t → t.Complete) ∧
    ArgMsg.SafeList reg true f.args ∧ SortMsg.SafeList reg true f.sorts) ∧ m.filter.Safe reg true

/-- The key of a join is there and complete. -/
def KeySafe (reg : Reg) (k : FieldRefMsg) : Prop :=
  ∃ root ref, k = some (root, ref) ∧ (ExprMsg.selection root ref).Safe reg true

/-- The keys of a hash or merge join are there and complete, in the current or the legacy form. -/
def KeysSafe (reg : Reg) (ks : List JoinKeyMsg) (lks rks : List FieldRefMsg) : Prop :=
  (∀ k ∈ ks, KeySafe reg k.left ∧ KeySafe reg k.right) ∧
  (ks = [] → (∀ k ∈ lks, KeySafe reg k) ∧ ∀ k ∈ rks, KeySafe reg k)

/-- The rows of a virtual table are complete (literals), or safe to read without a row to refer to
(expressions). -/
def ReadTypeMsg.Safe (reg : Reg) : ReadTypeMsg → Prop
  | .virt values exprs =>
      (∀ row ∈ values, ∀ l ∈ row, l.Complete) ∧ ∀ row ∈ exprs, ExprMsg.SafeList reg false row
  | _ => True

/-- Grouping expressions: complete; in the legacy form plain references, not absurdly many. -/
def GroupingsSafe (reg : Reg) (es : List ExprMsg) (gs : List GroupingMsg) : Prop :=
  ExprMsg.SafeList reg true es ∧
  (es = [] → (∀ g ∈ gs, ∀ e ∈ g.legacy, e.PlainRef) ∧
    (gs.map fun g => g.legacy.length).sum ≤ 2 ^ 32)

mutual
/-- The row type of the relation can be told: those of the inputs it depends on can be; the output
mapping refers to existing columns; the expressions that become columns have types; grouping
references refer to existing expressions; a write says what it returns. -/
def RelMsg.HasSchema (reg : Reg) : RelMsg → Prop
  | .read c s _ _ _ _ _ => EmitInRange c (schemaWidth s)
  | .project c i es _ =>
      i.HasSchema reg ∧ ExprMsg.TypedList reg true es ∧ EmitInRange c (i.width + es.length)
  | .join c l r _ _ ty _ => l.HasSchema reg ∧ r.HasSchema reg ∧
      EmitInRange c (match ty with
        | .inner | .outer | .left | .leftSingle | .right | .rightSingle => l.width + r.width
        | .leftSemi | .leftAnti => l.width
        | .rightSemi | .rightAnti => r.width
        | .unspecified | .other _ => 0)
  | .cross c l r _ => l.HasSchema reg ∧ r.HasSchema reg ∧ EmitInRange c (l.width + r.width)
  | .fetch c i _ _ _ => i.HasSchema reg ∧ EmitInRange c i.width
  | .aggregate c _ es gs ms _ =>
      ExprMsg.TypedList reg true es ∧
      (es ≠ [] → ∀ g ∈ gs, ∀ k ∈ g.refs, k.toNat < es.length) ∧
      EmitInRange c (groupingWidth es gs + ms.length)
  | .sort c i _ _ => i.HasSchema reg ∧ EmitInRange c i.width
  | .filter c i _ _ => i.HasSchema reg ∧ EmitInRange c i.width
  | .set c is _ _ => RelMsg.HasSchemaList reg is ∧ EmitInRange c (match is with
      | [] => 0
      | i :: _ => i.width)
  | .extSingle c i _ => i.HasSchema reg ∧ EmitInRange c i.width
  | .extLeaf c _ => EmitInRange c 0
  | .extMulti c is _ => RelMsg.HasSchemaList reg is ∧ EmitInRange c (match is with
      | [i] => i.width
      | _ => 0)
  | .hashJoin c l r _ _ _ _ _ _ =>
      l.HasSchema reg ∧ r.HasSchema reg ∧ EmitInRange c (l.width + r.width)
  | .mergeJoin c l r _ _ _ _ _ _ =>
      l.HasSchema reg ∧ r.HasSchema reg ∧ EmitInRange c (l.width + r.width)
  | .write c _ s _ _ mode => mode ≠ .unspecified ∧ EmitInRange c (match mode with
      | .modifiedRecords => schemaWidth s
      | _ => 0)
  | _ => True
/-- ... for each relation of a list -/
def RelMsg.HasSchemaList (reg : Reg) : List RelMsg → Prop
  | [] => True
  | m :: ms => m.HasSchema reg ∧ RelMsg.HasSchemaList reg ms
end

mutual
/-- The relation can be read without a panic: inputs are there; the common part is there where the
code takes it for granted; schemas, expressions, measures and join keys are complete; inputs whose
rows expressions refer to have a row type. -/
def RelMsg.Safe (reg : Reg) : RelMsg → Prop
  | .nil => False
  | .unset => True
  | .other => True
  | .read _ s flt best _ _ k =>
      k.Safe reg ∧ (∀ m, s = some m → m.Complete) ∧ flt.Safe reg true ∧ best.Safe reg true
  | .filter _ i e _ => i.Safe reg ∧ i.HasSchema reg ∧ e.Safe reg true
  | .fetch _ i _ _ _ => i.Safe reg
  | .aggregate c i es gs ms _ =>
      c ≠ none ∧ i.Safe reg ∧ i.HasSchema reg ∧ GroupingsSafe reg es gs ∧
      ∀ m ∈ ms, MeasureMsg.Safe reg m
  | .sort c i ss _ => c ≠ none ∧ i.Safe reg ∧ i.HasSchema reg ∧ SortMsg.SafeList reg true ss
  | .join c l r e p _ _ =>
      c ≠ none ∧ l.Safe reg ∧ l.HasSchema reg ∧ r.Safe reg ∧ r.HasSchema reg ∧ e.Safe reg true ∧
      p.Safe reg true
  | .project _ i es _ => i.Safe reg ∧ i.HasSchema reg ∧ ExprMsg.SafeList reg true es
  | .set c is _ _ => c ≠ none ∧ RelMsg.SafeList reg is ∧ RelMsg.HasSchemaList reg is
  | .extSingle c i _ => c ≠ none ∧ i.Safe reg
  | .extMulti c is _ => c ≠ none ∧ RelMsg.SafeList reg is
  | .extLeaf c _ => c ≠ none
  | .cross c l r _ => c ≠ none ∧ l.Safe reg ∧ r.Safe reg
  | .hashJoin c l r ks lks rks p _ _ =>
      c ≠ none ∧ l.Safe reg ∧ l.HasSchema reg ∧ r.Safe reg ∧ r.HasSchema reg ∧
      KeysSafe reg ks lks rks ∧ p.Safe reg true ∧
      (p.isNil = false → EmitInRange c (l.width + r.width))
  | .mergeJoin c l r ks lks rks p _ _ =>
      c ≠ none ∧ l.Safe reg ∧ l.HasSchema reg ∧ r.Safe reg ∧ r.HasSchema reg ∧
      KeysSafe reg ks lks rks ∧ p.Safe reg true ∧
      (p.isNil = false → EmitInRange c (l.width + r.width))
  | .write _ _ s _ i _ => i.Safe reg ∧ ∀ m, s = some m → m.Complete
/-- ... for each relation of a list -/
def RelMsg.SafeList (reg : Reg) : List RelMsg → Prop
  | [] => True
  | m :: ms => m.Safe reg ∧ RelMsg.SafeList reg ms
end

/-- No relation decoders are registered: every extension detail is kept undecoded. -/
def RelReg.NoDecoders (reg : RelReg) : Prop := ∀ d, reg.decodeExt d = .ok none

/-- A relation whose row type is not looked at when it is the root of a plan. -/
def RelMsg.SchemaUnused : RelMsg → Prop
  | .extSingle _ _ _ => True
  | .extLeaf _ _ => True
  | .extMulti _ _ _ => True
  | .write _ _ _ _ _ _ => True
  | _ => False

/-- An entry of a plan can be read without a panic. -/
def PlanRelMsg.Safe (reg : Reg) : PlanRelMsg RelMsg → Prop
  | .rel m => m.Safe reg
  | .root m _ => m.Safe reg ∧ (m.SchemaUnused ∨ m.HasSchema reg)
  | .unset => True

/-- A plan can be read without a panic. -/
def PlanMsg.Safe (reg : Reg) (m : PlanMsg RelMsg) : Prop :=
  (∀ r ∈ m.relations, r.Safe reg) ∧ ∀ b ∈ m.bindings, b.2.Complete

end Verif
