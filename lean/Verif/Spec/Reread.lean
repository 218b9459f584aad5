import Verif.Spec.NoPanic
import Verif.Spec.ExprProto
/-!
# Vocabulary for reading, writing and reading again: messages that say nothing that is lost

Predicates on messages only; none of the reading and writing functions is mentioned, except that relations
inside subqueries and masks, which are opaque numbers in an expression message, are asked about through
`Reg`.
-/

namespace Verif

/-- The day part of a compound interval is not all zero, or its precision is 0: the precision of an
all-zero day part is not written. -/
def DaySecond.PrecisionShown (d : DaySecond) : Prop :=
  d.days ≠ 0 ∨ d.seconds ≠ 0 ∨
    match d.mode with
    | .unset => False
    | .microseconds us => us ≠ 0
    | .precision p => d.subseconds ≠ 0 ∨ p = 0

mutual
/-- The literal message does not make reading return a nil literal, and names no interval_compound type or
unset type parameter, here and in all nested literals; values of user-defined types are there. -/
def PLit.Plain : PLit → Prop
  | .nil => True
  | .mk _ _ k => k.Plain
/-- ... by kind -/
def PLitKind.Plain : PLitKind → Prop
  | .intervalDayToSecond d => d.ModeOk
  | .null t => t.NoCompound
  | .struct fs => PLit.PlainList fs
  | .map kvs => PKeyValue.PlainList kvs
  | .list vs => PLit.PlainList vs
  | .emptyList t => ∀ n v e, t = some (n, v, e) → e.NoCompound
  | .emptyMap t => ∀ n v k e, t = some (n, v, k, e) → k.NoCompound ∧ e.NoCompound
  | .userDefined _ ps val => PParam.NoCompoundList ps ∧ val ≠ .unset
  | .precisionTime p v => ValidPrecision p ∧ ¬ v < 0
  | .precisionTimestamp p v => ValidPrecision p ∧ ¬ v < 0
  | .precisionTimestampTz p v => ValidPrecision p ∧ ¬ v < 0
  | .intervalCompound _ d => ∀ x, d = some x → x.CompoundOk ∧ x.PrecisionShown
  | _ => True
/-- ... for each literal of a list -/
def PLit.PlainList : List PLit → Prop
  | [] => True
  | l :: ls => l.Plain ∧ PLit.PlainList ls
/-- ... for each entry of a map -/
def PKeyValue.PlainList : List PKeyValue → Prop
  | [] => True
  | .mk k v :: kvs => k.Plain ∧ v.Plain ∧ PKeyValue.PlainList kvs
end

/-- The keys of the steps are plain literals. -/
def PSeg.KeysPlain : PSeg → Prop
  | .nil => True
  | .unset => True
  | .mapKey k c => k.Plain ∧ c.KeysPlain
  | .structField _ c => c.KeysPlain
  | .listElement _ c => c.KeysPlain

/-- The steps have plain keys; the mask is one that is read back as it was read. -/
def RefMsg.Plain (reg : Reg) : RefMsg → Prop
  | .unset => True
  | .direct s => s.KeysPlain
  | .masked m => reg.maskFrom (reg.maskTo (reg.maskFrom m)) = reg.maskFrom m

/-- The relation of a subquery, if it can be read, can be written and is then read as the same. -/
def RelAgain (reg : Reg) (m : Nat) : Prop :=
  ∀ r, reg.relFrom m = .ok r → ∃ m', reg.relTo r = .ok m' ∧ reg.relFrom m' = .ok r

/-- The type argument contains no interval_compound type, or is one. -/
def PTy.PlainArg (t : PTy) : Prop := t.NoCompound ∨ ∃ n v p, t = .intervalCompound n v p

mutual
/-- All literals, types, masks and subqueries of the expression are plain. -/
def ExprMsg.Plain (reg : Reg) : ExprMsg → Prop
  | .nil => True
  | .unset => True
  | .lit l => l.Plain
  | .selection root ref => RootMsg.Plain reg root ∧ ref.Plain reg
  | .scalar _ _ out args => (∀ t, out = some t → t.NoCompound) ∧ ArgMsg.PlainList reg args
  | .window _ _ out _ args sorts parts =>
      (∀ t, out = some t → t.NoCompound) ∧ ArgMsg.PlainList reg args ∧ SortMsg.PlainList reg sorts ∧
        ExprMsg.PlainList reg parts
  | .ifThen ifs els => PairMsg.PlainList reg ifs ∧ ExprMsg.Plain reg els
  | .switch m ifs els => ExprMsg.Plain reg m ∧ CaseMsg.PlainList reg ifs ∧ ExprMsg.Plain reg els
  | .singularOr v os => ExprMsg.Plain reg v ∧ ExprMsg.PlainList reg os
  | .multiOr vs os => ExprMsg.PlainList reg vs ∧ RowMsg.PlainList reg os
  | .cast t e _ => (∀ t', t = some t' → t'.NoCompound) ∧ ExprMsg.Plain reg e
  | .mapE _ _ kvs => PairMsg.PlainList reg kvs
  | .structE _ _ fs => ExprMsg.PlainList reg fs
  | .listE _ _ vs => ExprMsg.PlainList reg vs
  | .dynParam t _ => t.NoCompound
  | .scalarSubquery m => RelAgain reg m
  | .inPredicate ns m => ExprMsg.PlainList reg ns ∧ RelAgain reg m
  | .setPredicate _ m => RelAgain reg m
  | .setComparison _ _ l m => ExprMsg.Plain reg l ∧ RelAgain reg m
  | .lambda ps body =>
      (∀ n v ts, ps = some (n, v, ts) → ∀ t ∈ ts, t.NoCompound) ∧ ExprMsg.Plain reg body
/-- ... for each expression of a list -/
def ExprMsg.PlainList (reg : Reg) : List ExprMsg → Prop
  | [] => True
  | e :: es => ExprMsg.Plain reg e ∧ ExprMsg.PlainList reg es
/-- ... for pairs -/
def PairMsg.PlainList (reg : Reg) : List PairMsg → Prop
  | [] => True
  | .mk a b :: es => ExprMsg.Plain reg a ∧ ExprMsg.Plain reg b ∧ PairMsg.PlainList reg es
/-- ... for switch cases -/
def CaseMsg.PlainList (reg : Reg) : List CaseMsg → Prop
  | [] => True
  | .mk l e :: es => l.Plain ∧ ExprMsg.Plain reg e ∧ CaseMsg.PlainList reg es
/-- ... for rows of options -/
def RowMsg.PlainList (reg : Reg) : List RowMsg → Prop
  | [] => True
  | .mk r :: rs => ExprMsg.PlainList reg r ∧ RowMsg.PlainList reg rs
/-- ... for the root of a reference -/
def RootMsg.Plain (reg : Reg) : RootMsg → Prop
  | .expr e => ExprMsg.Plain reg e
  | _ => True
/-- ... for a function argument -/
def ArgMsg.Plain (reg : Reg) : ArgMsg → Prop
  | .type t => t.PlainArg
  | .value e => ExprMsg.Plain reg e
  | _ => True
/-- ... for function arguments -/
def ArgMsg.PlainList (reg : Reg) : List ArgMsg → Prop
  | [] => True
  | a :: as => ArgMsg.Plain reg a ∧ ArgMsg.PlainList reg as
/-- ... for sort fields -/
def SortMsg.PlainList (reg : Reg) : List SortMsg → Prop
  | [] => True
  | .mk e _ :: es => ExprMsg.Plain reg e ∧ SortMsg.PlainList reg es
end

/-- A function reference for which a declaration has to be made up gets one whose own reference is declared
by it: looking that up again gives the same. -/
def MadeUpStays (reg : Reg) (lookup : UInt32 → Option String) : Prop :=
  ∀ ref id a d, reg.decodeFunc ref = some id → lookup ref = none → reg.custom id = .ok (a, d) →
    ∃ id', reg.decodeFunc a = some id' ∧
      (lookup a = some d ∨ lookup a = none ∧ reg.custom id' = .ok (a, d))

/-- The same for aggregate functions, which are left without declaration. -/
def UnknownStays (reg : Reg) (lookup : UInt32 → Option String) : Prop :=
  ∀ ref id a d, reg.decodeFunc ref = some id → lookup ref = none → reg.custom id = .ok (a, d) →
    ∃ id' d', reg.decodeFunc a = some id' ∧ lookup a = none ∧ reg.custom id' = .ok (a, d')

/-! ## Relations -/

/-- The types of a schema. -/
def SchemaPlain (s : Option NamedStructMsg) : Prop :=
  ∀ x n v ts, s = some x → x.struct = some (n, v, ts) → ∀ t ∈ ts, t.NoCompound

/-- The rows of a virtual table are plain. -/
def ReadTypeMsg.Plain (reg : Reg) : ReadTypeMsg → Prop
  | .virt values exprs =>
      (∀ row ∈ values, ∀ l ∈ row, l.Plain) ∧ ∀ row ∈ exprs, ExprMsg.PlainList reg row
  | _ => True

/-- The function, arguments and filter of a measure are plain. -/
def MeasureMsg.Plain (reg : Reg) (m : MeasureMsg) : Prop :=
  (∀ f, m.measure = some f → (∀ t, f.out = some t → t.NoCompound) ∧ ArgMsg.PlainList reg f.args ∧
    SortMsg.PlainList reg f.sorts) ∧ m.filter.Plain reg

/-- The field reference of a join key is plain. -/
def KeyPlain (reg : Reg) (k : FieldRefMsg) : Prop :=
  ∀ root ref, k = some (root, ref) → (ExprMsg.selection root ref).Plain reg

/-- The keys of a hash or merge join are plain, in both forms. -/
def KeysPlain (reg : Reg) (ks : List JoinKeyMsg) (lks rks : List FieldRefMsg) : Prop :=
  (∀ k ∈ ks, KeyPlain reg k.left ∧ KeyPlain reg k.right) ∧ (∀ k ∈ lks, KeyPlain reg k) ∧
    ∀ k ∈ rks, KeyPlain reg k

/-- The detail of the definition. -/
def ExtDef.Says : ExtDef → Option Nat → Prop
  | .undecoded d, x => x = d
  | .custom _ d, x => x = some d

/-- What a registered decoder makes of a detail has a detail of which it makes the same. -/
def DetailAgain (reg : RelReg) (d : Option Nat) : Prop :=
  ∀ x, reg.decodeExt d = .ok (some x) → ∀ d', x.Says d' → reg.decodeExt d' = .ok (some x)

mutual
/-- All types and expressions of the relation tree are plain; masks and details of extension relations are
read back as they were read; writes state no output mode. -/
def RelMsg.Plain (reg : RelReg) : RelMsg → Prop
  | .nil => True
  | .unset => True
  | .other => True
  | .read _ s f b p _ k =>
      SchemaPlain s ∧ f.Plain reg.toReg ∧ b.Plain reg.toReg ∧ k.Plain reg.toReg ∧
        ∀ m, p = some m → reg.maskFrom (reg.maskTo (reg.maskFrom m)) = reg.maskFrom m
  | .project _ i es _ => RelMsg.Plain reg i ∧ ExprMsg.PlainList reg.toReg es
  | .join _ l r e p _ _ =>
      RelMsg.Plain reg l ∧ RelMsg.Plain reg r ∧ e.Plain reg.toReg ∧ p.Plain reg.toReg
  | .cross _ l r _ => RelMsg.Plain reg l ∧ RelMsg.Plain reg r
  | .fetch _ i _ _ _ => RelMsg.Plain reg i
  | .aggregate _ i es gs ms _ =>
      RelMsg.Plain reg i ∧ ExprMsg.PlainList reg.toReg es ∧
        (∀ g ∈ gs, ExprMsg.PlainList reg.toReg g.legacy) ∧ ∀ m ∈ ms, m.Plain reg.toReg
  | .sort _ i ss _ => RelMsg.Plain reg i ∧ SortMsg.PlainList reg.toReg ss
  | .filter _ i e _ => RelMsg.Plain reg i ∧ e.Plain reg.toReg
  | .set _ is _ _ => RelMsg.PlainList reg is
  | .extSingle _ i d => RelMsg.Plain reg i ∧ DetailAgain reg d
  | .extLeaf _ d => DetailAgain reg d
  | .extMulti _ is d => RelMsg.PlainList reg is ∧ DetailAgain reg d
  | .hashJoin _ l r ks lks rks p _ _ =>
      RelMsg.Plain reg l ∧ RelMsg.Plain reg r ∧ KeysPlain reg.toReg ks lks rks ∧ p.Plain reg.toReg
  | .mergeJoin _ l r ks lks rks p _ _ =>
      RelMsg.Plain reg l ∧ RelMsg.Plain reg r ∧ KeysPlain reg.toReg ks lks rks ∧ p.Plain reg.toReg
  | .write _ _ s _ i o => SchemaPlain s ∧ RelMsg.Plain reg i ∧ o = .unspecified
/-- ... for each relation of a list -/
def RelMsg.PlainList (reg : RelReg) : List RelMsg → Prop
  | [] => True
  | m :: ms => RelMsg.Plain reg m ∧ RelMsg.PlainList reg ms
end

/-- The relation of a plan entry is plain. -/
def PlanRelMsg.Plain (reg : RelReg) : PlanRelMsg RelMsg → Prop
  | .rel m => m.Plain reg
  | .root m _ => m.Plain reg
  | .unset => True

/-- The relations and parameter values of the plan are plain. -/
def PlanMsg.Plain (reg : RelReg) (m : PlanMsg RelMsg) : Prop :=
  (∀ r ∈ m.relations, r.Plain reg) ∧ ∀ b ∈ m.bindings, b.2.Plain

end Verif
