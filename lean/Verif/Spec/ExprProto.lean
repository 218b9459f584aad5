import Verif.Model.ExprProto
import Verif.Spec.FieldRef
/-!
# Vocabulary for expression round trips: what a message can carry
-/

namespace Verif

mutual
/-- No interval_compound type anywhere inside. -/
def Ty.NoCompound : Ty → Prop
  | .intervalCompound _ _ _ _ => False
  | .struct _ _ ts => Ty.NoCompoundList ts
  | .func _ ps r => Ty.NoCompoundList ps ∧ Ty.NoCompound r
  | .list _ _ t => Ty.NoCompound t
  | .map _ _ k e => Ty.NoCompound k ∧ Ty.NoCompound e
  | .udt _ _ _ ps => TParam.NoCompoundList ps
  | _ => True
/-- ... in each type of a list -/
def Ty.NoCompoundList : List Ty → Prop
  | [] => True
  | t :: ts => Ty.NoCompound t ∧ Ty.NoCompoundList ts
/-- ... in a type parameter -/
def TParam.NoCompound : TParam → Prop
  | .dataType t => Ty.NoCompound t
  | _ => True
/-- ... in each type parameter of a list -/
def TParam.NoCompoundList : List TParam → Prop
  | [] => True
  | p :: ps => TParam.NoCompound p ∧ TParam.NoCompoundList ps
end

mutual
/-- No interval_compound type among the types a literal records. -/
def Lit.NoCompound : Lit → Prop
  | .null t => t.NoCompound
  | .prim _ t => t.NoCompound
  | .bytes _ _ t => t.NoCompound
  | .struct fs t => Lit.NoCompoundList fs ∧ t.NoCompound
  | .list vs t => Lit.NoCompoundList vs ∧ t.NoCompound
  | .map kvs t => KeyValue.NoCompoundList kvs ∧ t.NoCompound
  | .proto _ t => t.NoCompound
  | _ => True
/-- ... for each literal of a list -/
def Lit.NoCompoundList : List Lit → Prop
  | [] => True
  | l :: ls => l.NoCompound ∧ Lit.NoCompoundList ls
/-- ... for each entry of a map -/
def KeyValue.NoCompoundList : List KeyValue → Prop
  | [] => True
  | .mk k v :: kvs => k.NoCompound ∧ v.NoCompound ∧ KeyValue.NoCompoundList kvs
end

/-- A type a message can carry: time precisions are in range, and no interval_compound type occurs
(those are read back as pointers, see `C02_negation`). -/
def Ty.Sendable (t : Ty) : Prop := t.PrecisionsOk ∧ t.NoCompound

/-- A literal a message can carry: see `Lit.Faithful` for the lossy cases. -/
def Lit.Sendable (l : Lit) : Prop := l.Faithful ∧ l.NoCompound

/-- Every map key of the chain can be carried and is of a plan type. -/
def Seg.KeysSendable : Seg → Prop
  | .nil => True
  | .mapKey k c => k.Sendable ∧ (∃ t, k.getType = .ok t ∧ t.PlanType) ∧ c.KeysSendable
  | .structField _ c => c.KeysSendable
  | .listElement _ c => c.KeysSendable

/-- The type recorded in a field reference is the one found by walking its steps: from the row of
the base schema, or from the type of the root expression. References to outer rows, to lambda
parameters, or without a base schema record no type. -/
def Recorded (base : Option (List Ty)) (root : ERoot) (s : Seg) (known : Option Ty) : Prop :=
  match root with
  | .rootReference =>
      match base with
      | none => known = none
      | some ts => ∃ t, Walk s.steps (.struct NullabilityRequired 0 ts) t ∧ known = some t
  | .expr e => ∃ u t, e.getType = .ok u ∧ Walk s.steps u t ∧ known = some t
  | _ => known = none

/-- The call's function has an anchor in the registry, and its declaration is the registered one;
when none is registered, the declaration is the one made up for its id, whose anchor is the call's
function reference. -/
def DeclaredIn (reg : Reg) (lookup : UInt32 → Option String) (a : FnAttrs) : Prop :=
  ∃ id, reg.decodeFunc a.funcRef = some id ∧
    (lookup a.funcRef = some a.declaration ∨
      (lookup a.funcRef = none ∧ reg.custom id = .ok (a.funcRef, a.declaration)))

/-- The relation of a subquery survives being written and read. -/
def RelRef.Survives (reg : Reg) (r : RelRef) : Prop :=
  ∀ m, reg.relTo r = .ok m → reg.relFrom m = .ok r

mutual
/-- An expression a message can carry, to be read against the row type `base`: literals, types and
relations inside it can be carried; no required part is nil; functions are declared; field
references record the right type and are not masks; conditionals have an else branch; map and list
expressions are not empty; lambda parameters are required; sort fields have a kind. -/
def Expr.Sendable (reg : Reg) (base : Option (List Ty)) : Expr → Prop
  | .nil => False
  | .lit l => l.Sendable
  | .fieldRef root ref known =>
      ERoot.Sendable reg base root ∧
      match ref with
      | .nil => known = none
      | .seg s => s ≠ .nil ∧ s.KeysSendable ∧ Recorded base root s known
      | .mask _ => False
  | .ifThen ifs els => EPair.SendableList reg base ifs ∧ Expr.Sendable reg base els
  | .cast ty input _ => ty.Sendable ∧ Expr.Sendable reg base input
  | .dynParam ty _ => ty.Sendable
  | .switch m ifs els =>
      Expr.Sendable reg base m ∧ ECase.SendableList reg base ifs ∧ Expr.Sendable reg base els
  | .singularOr v os => Expr.Sendable reg base v ∧ Expr.SendableList reg base os
  | .multiOr v os => Expr.SendableList reg base v ∧ ERow.SendableList reg base os
  | .mapE _ _ kvs => kvs ≠ [] ∧ EPair.SendableList reg base kvs
  | .structE _ _ fs => Expr.SendableList reg base fs
  | .listE _ _ vs => vs ≠ [] ∧ Expr.SendableList reg base vs
  | .scalar a args =>
      DeclaredIn reg reg.scalar a ∧ a.outputType.Sendable ∧ EArg.SendableList reg base args
  | .window a _ args sorts parts =>
      DeclaredIn reg reg.window a ∧ a.outputType.Sendable ∧ EArg.SendableList reg base args ∧
        ESort.SendableList reg base sorts ∧ Expr.SendableList reg base parts
  | .lambda n _ ps body =>
      n = NullabilityRequired ∧ (∀ t ∈ ps, t.Sendable) ∧ Expr.Sendable reg base body
  | .scalarSubquery r => r.Survives reg
  | .inPredicate ns r => Expr.SendableList reg base ns ∧ r.Survives reg
  | .setPredicate _ r => r.Survives reg
  | .setComparison _ _ l r =>
      Expr.Sendable reg base l ∧ match r with
        | none => False
        | some r => r.Survives reg
/-- ... for each expression of a list -/
def Expr.SendableList (reg : Reg) (base : Option (List Ty)) : List Expr → Prop
  | [] => True
  | e :: es => Expr.Sendable reg base e ∧ Expr.SendableList reg base es
/-- ... for each pair -/
def EPair.SendableList (reg : Reg) (base : Option (List Ty)) : List EPair → Prop
  | [] => True
  | .mk a b :: es =>
      Expr.Sendable reg base a ∧ Expr.Sendable reg base b ∧ EPair.SendableList reg base es
/-- ... for each case of a switch -/
def ECase.SendableList (reg : Reg) (base : Option (List Ty)) : List ECase → Prop
  | [] => True
  | .mk l e :: es => l.Sendable ∧ Expr.Sendable reg base e ∧ ECase.SendableList reg base es
/-- ... for each option of a multi-or-list -/
def ERow.SendableList (reg : Reg) (base : Option (List Ty)) : List ERow → Prop
  | [] => True
  | .mk es :: rs => Expr.SendableList reg base es ∧ ERow.SendableList reg base rs
/-- ... for the root of a field reference -/
def ERoot.Sendable (reg : Reg) (base : Option (List Ty)) : ERoot → Prop
  | .expr e => Expr.Sendable reg base e
  | _ => True
/-- ... for an argument -/
def EArg.Sendable (reg : Reg) (base : Option (List Ty)) : EArg → Prop
  | .nil => False
  | .expr e => Expr.Sendable reg base e
  | .type t => t.Sendable
  | .enum _ => True
/-- ... for each argument -/
def EArg.SendableList (reg : Reg) (base : Option (List Ty)) : List EArg → Prop
  | [] => True
  | a :: as => EArg.Sendable reg base a ∧ EArg.SendableList reg base as
/-- ... for each sort field -/
def ESort.SendableList (reg : Reg) (base : Option (List Ty)) : List ESort → Prop
  | [] => True
  | .mk e k :: es => Expr.Sendable reg base e ∧ k ≠ .nil ∧ ESort.SendableList reg base es
end

/-! ## What a message says -/

/-- The kind of an expression. -/
def Expr.kindName : Expr → String
  | .nil => "nil"
  | .lit _ => "literal"
  | .fieldRef _ _ _ => "selection"
  | .ifThen _ _ => "if_then"
  | .cast _ _ _ => "cast"
  | .dynParam _ _ => "dynamic_parameter"
  | .switch _ _ _ => "switch_expression"
  | .singularOr _ _ => "singular_or_list"
  | .multiOr _ _ => "multi_or_list"
  | .mapE _ _ _ => "nested map"
  | .structE _ _ _ => "nested struct"
  | .listE _ _ _ => "nested list"
  | .scalar _ _ => "scalar_function"
  | .window _ _ _ _ _ => "window_function"
  | .lambda _ _ _ _ => "lambda"
  | .scalarSubquery _ => "subquery scalar"
  | .inPredicate _ _ => "subquery in_predicate"
  | .setPredicate _ _ => "subquery set_predicate"
  | .setComparison _ _ _ _ => "subquery set_comparison"

/-- The kind of an expression message. -/
def ExprMsg.kindName : ExprMsg → String
  | .nil => "nil"
  | .unset => "unset"
  | .lit _ => "literal"
  | .selection _ _ => "selection"
  | .ifThen _ _ => "if_then"
  | .cast _ _ _ => "cast"
  | .dynParam _ _ => "dynamic_parameter"
  | .switch _ _ _ => "switch_expression"
  | .singularOr _ _ => "singular_or_list"
  | .multiOr _ _ => "multi_or_list"
  | .mapE _ _ _ => "nested map"
  | .structE _ _ _ => "nested struct"
  | .listE _ _ _ => "nested list"
  | .scalar _ _ _ _ => "scalar_function"
  | .window _ _ _ _ _ _ _ => "window_function"
  | .lambda _ _ => "lambda"
  | .scalarSubquery _ => "subquery scalar"
  | .inPredicate _ _ => "subquery in_predicate"
  | .setPredicate _ _ => "subquery set_predicate"
  | .setComparison _ _ _ _ => "subquery set_comparison"

/-- A window bound in words. -/
def Bound.says : Option Bound → String × Option Int64
  | none => ("none", none)
  | some (.preceding n) => ("preceding", some n)
  | some (.following n) => ("following", some n)
  | some .currentRow => ("current row", none)
  | some .unbounded => ("unbounded", none)

/-- ... of a message -/
def BoundMsg.says : Option BoundMsg → String × Option Int64
  | none => ("none", none)
  | some .unset => ("unset", none)
  | some (.preceding n) => ("preceding", some n)
  | some (.following n) => ("following", some n)
  | some .currentRow => ("current row", none)
  | some .unbounded => ("unbounded", none)

/-- How a sort field orders. -/
def ESort.says : ESort → String × Int
  | .mk _ .nil => ("none", 0)
  | .mk _ (.direction d) => ("direction", d.toInt)
  | .mk _ (.func r) => ("comparison function", r.toNat)

/-- ... of a message -/
def SortMsg.says : SortMsg → String × Int
  | .mk _ .unset => ("none", 0)
  | .mk _ (.direction d) => ("direction", d.toInt)
  | .mk _ (.func r) => ("comparison function", r.toNat)

/-- Whether an argument is a value, a type, or which enum value. -/
def EArg.says : EArg → String × String
  | .nil => ("nil", "")
  | .expr _ => ("value", "")
  | .type _ => ("type", "")
  | .enum s => ("enum", s)

/-- ... of a message -/
def ArgMsg.says : ArgMsg → String × String
  | .unset => ("unset", "")
  | .value _ => ("value", "")
  | .type _ => ("type", "")
  | .enum s => ("enum", s)

/-- What a field reference starts from. -/
def ERoot.says : ERoot → String × UInt32
  | .rootReference => ("root", 0)
  | .outer n => ("outer", n)
  | .lambdaParam n => ("lambda parameter", n)
  | .expr .nil => ("root", 0)
  | .expr _ => ("expression", 0)

/-- ... of a message -/
def RootMsg.says : RootMsg → String × UInt32
  | .unset => ("unset", 0)
  | .rootReference => ("root", 0)
  | .outer n => ("outer", n)
  | .lambdaParam n => ("lambda parameter", n)
  | .expr _ => ("expression", 0)

/-- The number of fields of each option of a multi-or-list. -/
def ERow.width : ERow → Nat
  | .mk es => es.length
/-- ... of a message -/
def RowMsg.width : RowMsg → Nat
  | .mk es => es.length

/-- Everything an expression states besides its parts: flags, references, enum numbers, counts. -/
structure Says where
  root : String × UInt32 := ("", 0)
  fail : Int32 := 0
  paramRef : UInt32 := 0
  nullable : Bool := false
  variation : UInt32 := 0
  nullability : Nullability := 0
  funcRef : UInt32 := 0
  options : List (String × List String) := []
  phase : Int32 := 0
  invocation : Int32 := 0
  boundsType : Int32 := 0
  lower : String × Option Int64 := ("", none)
  upper : String × Option Int64 := ("", none)
  sorts : List (String × Int) := []
  args : List (String × String) := []
  widths : List Nat := []
  counts : List Nat := []
  predicate : Int32 := 0
  reduction : Int32 := 0
  comparison : Int32 := 0

/-- ... of an expression -/
def Expr.says : Expr → Says
  | .fieldRef root _ _ => { root := root.says }
  | .ifThen ifs els => { counts := [ifs.length, if els.isNil then 0 else 1] }
  | .cast _ _ fail => { fail }
  | .dynParam _ ref => { paramRef := ref }
  | .switch _ ifs els => { counts := [ifs.length, if els.isNil then 0 else 1] }
  | .multiOr v os => { counts := [v.length], widths := os.map ERow.width }
  | .mapE n v _ => { nullable := n, variation := v }
  | .structE n v _ => { nullable := n, variation := v }
  | .listE n v _ => { nullable := n, variation := v }
  | .scalar a args =>
      { funcRef := a.funcRef, options := a.options, args := args.map EArg.says }
  | .window a w args sorts parts =>
      { funcRef := a.funcRef, options := a.options, args := args.map EArg.says, phase := w.phase,
        invocation := w.invocation, boundsType := w.boundsType, lower := Bound.says w.lower,
        upper := Bound.says w.upper, sorts := sorts.map ESort.says, counts := [parts.length] }
  | .lambda n v _ _ => { nullability := n, variation := v }
  | .setPredicate op _ => { predicate := op }
  | .setComparison red cmp _ _ => { reduction := red, comparison := cmp }
  | _ => {}

/-- ... of a message -/
def ExprMsg.says : ExprMsg → Says
  | .selection root _ => { root := root.says }
  | .ifThen ifs els => { counts := [ifs.length, if els.isNil then 0 else 1] }
  | .cast _ _ fail => { fail }
  | .dynParam _ ref => { paramRef := ref }
  | .switch _ ifs els => { counts := [ifs.length, if els.isNil then 0 else 1] }
  | .multiOr v os => { counts := [v.length], widths := os.map RowMsg.width }
  | .mapE n v _ => { nullable := n, variation := v }
  | .structE n v _ => { nullable := n, variation := v }
  | .listE n v _ => { nullable := n, variation := v }
  | .scalar ref options _ args => { funcRef := ref, options, args := args.map ArgMsg.says }
  | .window ref options _ w args sorts parts =>
      { funcRef := ref, options, args := args.map ArgMsg.says, phase := w.phase,
        invocation := w.invocation, boundsType := w.boundsType, lower := BoundMsg.says w.lower,
        upper := BoundMsg.says w.upper, sorts := sorts.map SortMsg.says, counts := [parts.length] }
  | .lambda (some (n, v, _)) _ => { nullability := n, variation := v }
  | .setPredicate op _ => { predicate := op }
  | .setComparison red cmp _ _ => { reduction := red, comparison := cmp }
  | _ => {}

/-- One direct part of an expression: a subexpression, a type, a literal, a relation, a reference. -/
inductive Part where
  | expr (e : Expr)
  | type (t : Ty)
  | argType (t : Ty)
  | lit (l : Lit)
  | rel (r : RelRef)
  | seg (s : Seg)
  | mask (addr : Nat)

/-- ... of a message -/
inductive PartMsg where
  | expr (e : ExprMsg)
  | type (t : PTy)
  | lit (l : PLit)
  | rel (r : Nat)
  | seg (s : PSeg)
  | mask (m : Nat)

/-- A part of a message is the part of the expression, written. -/
def Part.Written (reg : Reg) : Part → PartMsg → Prop
  | .expr e, .expr m => Expr.toProto reg e = .ok m
  | .type t, .type m => typeToProto t = .ok m
  | .argType t, .type m => typeArgToProto t = .ok m
  | .lit l, .lit m => literalToProto l = .ok m
  | .rel r, .rel m => reg.relTo r = .ok m
  | .seg s, .seg m => segToProto s = .ok m
  | .mask a, .mask m => reg.maskTo a = m
  | _, _ => False

/-- the parts of a pair -/
def EPair.items : EPair → List Part
  | .mk a b => [.expr a, .expr b]
/-- the parts of a case -/
def ECase.items : ECase → List Part
  | .mk l e => [.lit l, .expr e]
/-- the parts of an option -/
def ERow.items : ERow → List Part
  | .mk es => es.map .expr
/-- the parts of an argument -/
def EArg.items : EArg → List Part
  | .expr e => [.expr e]
  | .type t => [.argType t]
  | _ => []
/-- the parts of a sort field -/
def ESort.items : ESort → List Part
  | .mk e _ => [.expr e]
/-- an optional expression -/
def Expr.opt (e : Expr) : List Part := if e.isNil then [] else [.expr e]

/-- the parts of the root of a field reference -/
def ERoot.items : ERoot → List Part
  | .expr e => e.opt
  | _ => []
/-- the steps or the mask of a field reference -/
def ERef.items : ERef → List Part
  | .nil => []
  | .seg s => [.seg s]
  | .mask a => [.mask a]

/-- The direct parts of an expression, in order. -/
def Expr.items : Expr → List Part
  | .nil => []
  | .lit l => [.lit l]
  | .fieldRef root ref _ => root.items ++ ref.items
  | .ifThen ifs els => ifs.flatMap EPair.items ++ els.opt
  | .cast ty e _ => [.type ty, .expr e]
  | .dynParam ty _ => [.type ty]
  | .switch m cs els => .expr m :: cs.flatMap ECase.items ++ els.opt
  | .singularOr v os => .expr v :: os.map .expr
  | .multiOr v os => v.map .expr ++ os.flatMap ERow.items
  | .mapE _ _ kvs => kvs.flatMap EPair.items
  | .structE _ _ fs => fs.map .expr
  | .listE _ _ vs => vs.map .expr
  | .scalar a args => .type a.outputType :: args.flatMap EArg.items
  | .window a _ args sorts parts =>
      .type a.outputType :: args.flatMap EArg.items ++ sorts.flatMap ESort.items ++
        parts.map .expr
  | .lambda _ _ ps b => ps.map .type ++ [.expr b]
  | .scalarSubquery r => [.rel r]
  | .inPredicate ns r => ns.map .expr ++ [.rel r]
  | .setPredicate _ r => [.rel r]
  | .setComparison _ _ l r => .expr l :: (r.toList.map .rel)

/-- the parts of a pair message -/
def PairMsg.items : PairMsg → List PartMsg
  | .mk a b => [.expr a, .expr b]
/-- the parts of a case message -/
def CaseMsg.items : CaseMsg → List PartMsg
  | .mk l e => [.lit l, .expr e]
/-- the parts of an option message -/
def RowMsg.items : RowMsg → List PartMsg
  | .mk es => es.map .expr
/-- the parts of an argument message -/
def ArgMsg.items : ArgMsg → List PartMsg
  | .value e => [.expr e]
  | .type t => [.type t]
  | _ => []
/-- the parts of a sort field message -/
def SortMsg.items : SortMsg → List PartMsg
  | .mk e _ => [.expr e]
/-- an optional expression message -/
def ExprMsg.opt (e : ExprMsg) : List PartMsg := if e.isNil then [] else [.expr e]

/-- the parts of a root message -/
def RootMsg.items : RootMsg → List PartMsg
  | .expr e => [.expr e]
  | _ => []
/-- the steps or the mask of a field reference message -/
def RefMsg.items : RefMsg → List PartMsg
  | .unset => []
  | .direct s => [.seg s]
  | .masked a => [.mask a]

/-- The direct parts of an expression message, in order. -/
def ExprMsg.items : ExprMsg → List PartMsg
  | .nil | .unset => []
  | .lit l => [.lit l]
  | .selection root ref => root.items ++ ref.items
  | .ifThen ifs els => ifs.flatMap PairMsg.items ++ els.opt
  | .cast ty e _ => ty.toList.map .type ++ [.expr e]
  | .dynParam ty _ => [.type ty]
  | .switch m cs els => .expr m :: cs.flatMap CaseMsg.items ++ els.opt
  | .singularOr v os => .expr v :: os.map .expr
  | .multiOr v os => v.map .expr ++ os.flatMap RowMsg.items
  | .mapE _ _ kvs => kvs.flatMap PairMsg.items
  | .structE _ _ fs => fs.map .expr
  | .listE _ _ vs => vs.map .expr
  | .scalar _ _ out args => out.toList.map .type ++ args.flatMap ArgMsg.items
  | .window _ _ out _ args sorts parts =>
      out.toList.map .type ++ args.flatMap ArgMsg.items ++ sorts.flatMap SortMsg.items ++
        parts.map .expr
  | .lambda none b => [.expr b]
  | .lambda (some (_, _, ps)) b => ps.map .type ++ [.expr b]
  | .scalarSubquery r => [.rel r]
  | .inPredicate ns r => ns.map .expr ++ [.rel r]
  | .setPredicate _ r => [.rel r]
  | .setComparison _ _ l r => [.expr l, .rel r]

/-- The literal message is one that reading gives up on without an error: a time or timestamp before zero or of a
precision other than 0..9, an interval of such a precision, or a compound interval whose day part is malformed. -/
def PLit.Unreadable : PLit → Prop
  | .mk _ _ (.precisionTime p v) => ¬ ValidPrecision p ∨ v < 0
  | .mk _ _ (.precisionTimestamp p v) => ¬ ValidPrecision p ∨ v < 0
  | .mk _ _ (.precisionTimestampTz p v) => ¬ ValidPrecision p ∨ v < 0
  | .mk _ _ (.intervalDayToSecond d) => ∃ p, d.mode = .precision p ∧ ¬ ValidPrecision p
  | .mk _ _ (.intervalCompound _ (some d)) =>
      match d.mode with
      | .unset => True
      | .microseconds _ => d.subseconds > 0
      | .precision p => ¬ ValidPrecision p
  | _ => False

mutual
/-- The literal messages that stand for expressions or for labels of switches in an expression message, at any depth. -/
def ExprMsg.literals : ExprMsg → List PLit
  | .nil | .unset | .dynParam _ _ | .scalarSubquery _ | .setPredicate _ _ => []
  | .lit l => [l]
  | .selection root _ => RootMsg.literals root
  | .scalar _ _ _ args => ArgMsg.literals args
  | .window _ _ _ _ args sorts parts => ArgMsg.literals args ++ SortMsg.literals sorts ++ ExprMsg.literalsL parts
  | .ifThen ifs els => PairMsg.literals ifs ++ ExprMsg.literals els
  | .switch m cs els => ExprMsg.literals m ++ CaseMsg.literals cs ++ ExprMsg.literals els
  | .singularOr v os => ExprMsg.literals v ++ ExprMsg.literalsL os
  | .multiOr vs os => ExprMsg.literalsL vs ++ RowMsg.literals os
  | .cast _ e _ => ExprMsg.literals e
  | .mapE _ _ kvs => PairMsg.literals kvs
  | .structE _ _ fs => ExprMsg.literalsL fs
  | .listE _ _ vs => ExprMsg.literalsL vs
  | .inPredicate ns _ => ExprMsg.literalsL ns
  | .setComparison _ _ l _ => ExprMsg.literals l
  | .lambda _ b => ExprMsg.literals b
/-- ... in a list -/
def ExprMsg.literalsL : List ExprMsg → List PLit
  | [] => []
  | m :: ms => ExprMsg.literals m ++ ExprMsg.literalsL ms
/-- ... in pairs -/
def PairMsg.literals : List PairMsg → List PLit
  | [] => []
  | .mk a b :: ms => ExprMsg.literals a ++ ExprMsg.literals b ++ PairMsg.literals ms
/-- ... in switch cases, with the labels -/
def CaseMsg.literals : List CaseMsg → List PLit
  | [] => []
  | .mk l e :: ms => l :: ExprMsg.literals e ++ CaseMsg.literals ms
/-- ... in rows -/
def RowMsg.literals : List RowMsg → List PLit
  | [] => []
  | .mk es :: ms => ExprMsg.literalsL es ++ RowMsg.literals ms
/-- ... in the root of a reference -/
def RootMsg.literals : RootMsg → List PLit
  | .expr e => ExprMsg.literals e
  | _ => []
/-- ... in arguments -/
def ArgMsg.literals : List ArgMsg → List PLit
  | [] => []
  | .value e :: ms => ExprMsg.literals e ++ ArgMsg.literals ms
  | _ :: ms => ArgMsg.literals ms
/-- ... in sort fields -/
def SortMsg.literals : List SortMsg → List PLit
  | [] => []
  | .mk e _ :: ms => ExprMsg.literals e ++ SortMsg.literals ms
end

end Verif
