import Verif.Model.ExprBuild
import Verif.Spec.FuncCall
import Verif.Spec.ExprProto
import Verif.Spec.FieldRef
/-!
# Vocabulary for statements about building expressions

Nothing here is used by the model.
-/

namespace Verif

/-- Every anchor of `s` is an anchor of `s'`, for the same id. -/
def ExtSet.Grows (s s' : ExtSet) : Prop :=
  (∀ k a id, s.decode k a = some id → s'.decode k a = some id) ∧
  (∀ k id a, s.anchor k id = some a → s'.anchor k id = some a)

/-- Fewer than `2^32 - 1` anchors of each kind have been handed out. -/
def ExtSet.Small (s : ExtSet) : Prop :=
  (∀ k, s.count k + 1 < 2 ^ 32) ∧ s.urns.len + 1 < 2 ^ 32

mutual
/-- `e` is the expression that the builder `b` describes: it has the shape of `b`, with the types,
options and settings given to `b`; functions are implementations registered in the collection `c`
for the ids given, which accept the arguments (`CallsImpl`), referred to by their anchor in the set
`s`; field references record the type found in the schema; references to lambda parameters record the
type of the parameter of the lambda as many steps out as they say, `ctx` being the parameters of the
enclosing lambdas, innermost first. -/
def XExp.Describes (c : Collection) (s : ExtSet) (schema : Option (List Ty)) :
    XExp → List (List Ty) → Expr → Prop
  | .nil, _, _ => False
  | .wrap x failed, _, e => failed = false ∧ e = x
  | .cast ty fail input, ctx, e => ∃ i, e = .cast ty i fail ∧ XExp.Describes c s schema input ctx i
  | .dynParam ty ref, _, e => ∃ t, ty = some t ∧ e = .dynParam t ref
  | .scalarFn id opts args, ctx, e =>
      ∃ a as v, e = .scalar a as ∧ a.options = opts ∧ XArg.DescribesList c s schema args ctx as ∧
        CallsImpl c .scalar s id as a v
  | .windowFn id opts w args sorts parts, ctx, e =>
      ∃ a as ps v, e = .window a w as sorts ps ∧ a.options = opts ∧
        XArg.DescribesList c s schema args ctx as ∧ XExp.DescribesList c s schema parts ctx ps ∧
        CallsImpl c .window s id as a v ∧ (w.boundsType = boundsTypeRange → sorts.length = 1) ∧
        (v.impl.decomposable = "NONE" → w.phase = phaseInitialToResult)
  | .ref root ref, _, e =>
      ∃ steps t, ref = .seg steps ∧ e = .fieldRef root ref (some t) ∧ Recorded schema root steps (some t)
  | .lambdaParam field child steps, ctx, e =>
      ∃ ps t, ctx[steps.toNat]? = some ps ∧
        Walk (Seg.structField field child).steps (.struct NullabilityRequired 0 ps) t ∧
        e = .fieldRef (.lambdaParam steps) (.seg (.structField field child)) (some t)
  | .lambda params body, ctx, e =>
      ∃ p ts b, params = some p ∧ p.nullability = NullabilityRequired ∧ p.types = ts.map some ∧
        e = .lambda NullabilityRequired p.variation ts b ∧
        XExp.Describes c s schema body (ts :: ctx) b
/-- ... for arguments -/
def XArg.DescribesList (c : Collection) (s : ExtSet) (schema : Option (List Ty)) :
    List XArg → List (List Ty) → List EArg → Prop
  | [], _, es => es = []
  | .enum v :: as, ctx, es => ∃ rest, es = .enum v :: rest ∧ XArg.DescribesList c s schema as ctx rest
  | .expr b :: as, ctx, es =>
      ∃ e rest, es = .expr e :: rest ∧ XExp.Describes c s schema b ctx e ∧
        XArg.DescribesList c s schema as ctx rest
/-- ... for partitions -/
def XExp.DescribesList (c : Collection) (s : ExtSet) (schema : Option (List Ty)) :
    List XExp → List (List Ty) → List Expr → Prop
  | [], _, es => es = []
  | b :: bs, ctx, es =>
      ∃ e rest, es = e :: rest ∧ XExp.Describes c s schema b ctx e ∧
        XExp.DescribesList c s schema bs ctx rest
end

mutual
/-- No nil expression is given as an argument of a function, and references have steps, whose map keys
are literals of plan types. -/
def XExp.Proper : XExp → Prop
  | .cast _ _ input => XExp.Proper input
  | .scalarFn _ _ args => XArg.ProperList args
  | .windowFn _ _ _ args _ parts => XArg.ProperList args ∧ XExp.ProperList parts
  | .ref _ ref => ∀ s, ref = .seg s → s ≠ .nil ∧ s.KeysTyped
  | .lambdaParam _ child _ => child.KeysTyped
  | .lambda _ body => XExp.Proper body
  | _ => True
/-- ... in arguments -/
def XArg.ProperList : List XArg → Prop
  | [] => True
  | .enum _ :: as => XArg.ProperList as
  | .expr b :: as => (∀ failed, b ≠ .wrap .nil failed) ∧ XExp.Proper b ∧ XArg.ProperList as
/-- ... in partitions -/
def XExp.ProperList : List XExp → Prop
  | [] => True
  | b :: bs => XExp.Proper b ∧ XExp.ProperList bs
end

mutual
/-- What is put into the builders can be carried by a message: expressions, types, sort fields and the
steps of references; and there are no references to lambda parameters, whose type is not carried. -/
def XExp.Sendable (reg : Reg) (base : Option (List Ty)) : XExp → Prop
  | .nil => True
  | .wrap e _ => e.Sendable reg base
  | .cast ty _ input => ty.Sendable ∧ XExp.Sendable reg base input
  | .dynParam ty _ => ∀ t, ty = some t → t.Sendable
  | .scalarFn _ _ args => XArg.SendableList reg base args
  | .windowFn _ _ _ args sorts parts =>
      XArg.SendableList reg base args ∧ ESort.SendableList reg base sorts ∧
        XExp.SendableList reg base parts
  | .ref root ref => ERoot.Sendable reg base root ∧ ∀ s, ref = .seg s → s ≠ .nil ∧ s.KeysSendable
  | .lambdaParam .. => False
  | .lambda params body =>
      (∀ p, params = some p → ∀ t, some t ∈ p.types → t.Sendable) ∧ XExp.Sendable reg base body
/-- ... in arguments -/
def XArg.SendableList (reg : Reg) (base : Option (List Ty)) : List XArg → Prop
  | [] => True
  | .enum _ :: as => XArg.SendableList reg base as
  | .expr b :: as => XExp.Sendable reg base b ∧ XArg.SendableList reg base as
/-- ... in partitions -/
def XExp.SendableList (reg : Reg) (base : Option (List Ty)) : List XExp → Prop
  | [] => True
  | b :: bs => XExp.Sendable reg base b ∧ XExp.SendableList reg base bs
end

mutual
/-- The types of the function calls that the builders made, at the places of the function builders in
`b`, are `ok`. -/
def XExp.CallTypes (ok : Ty → Prop) : XExp → Expr → Prop
  | .cast _ _ input, .cast _ i _ => XExp.CallTypes ok input i
  | .scalarFn _ _ args, .scalar a as => ok a.outputType ∧ XArg.CallTypes ok args as
  | .windowFn _ _ _ args _ parts, .window a _ as _ ps =>
      ok a.outputType ∧ XArg.CallTypes ok args as ∧ XExp.CallTypesList ok parts ps
  | .lambda _ body, .lambda _ _ _ b => XExp.CallTypes ok body b
  | _, _ => True
/-- ... in arguments -/
def XArg.CallTypes (ok : Ty → Prop) : List XArg → List EArg → Prop
  | .expr b :: as, .expr e :: es => XExp.CallTypes ok b e ∧ XArg.CallTypes ok as es
  | .enum _ :: as, _ :: es => XArg.CallTypes ok as es
  | _, _ => True
/-- ... in partitions -/
def XExp.CallTypesList (ok : Ty → Prop) : List XExp → List Expr → Prop
  | b :: bs, e :: es => XExp.CallTypes ok b e ∧ XExp.CallTypesList ok bs es
  | _, _ => True
end

/-- There is no function builder. -/
def XExp.NoCalls : XExp → Prop
  | .cast _ _ input => XExp.NoCalls input
  | .scalarFn .. => False
  | .windowFn .. => False
  | .lambda _ body => XExp.NoCalls body
  | _ => True

/-- The expressions are built one after the other, the set going from one to the next. -/
inductive XExp.BuiltInTurn (c : Collection) (schema : Option (List Ty)) (ctx : Ctx) :
    List XExp → ExtSet → List Expr → ExtSet → Prop where
  | nil : BuiltInTurn c schema ctx [] s [] s
  | cons : XExp.build c schema b ctx s = .ok (e, s1) → BuiltInTurn c schema ctx bs s1 es s2 →
      BuiltInTurn c schema ctx (b :: bs) s (e :: es) s2

/-- The arguments are built one after the other; enumeration values are taken as they are. -/
inductive XArg.BuiltInTurn (c : Collection) (schema : Option (List Ty)) (ctx : Ctx) :
    List XArg → ExtSet → List EArg → ExtSet → Prop where
  | nil : BuiltInTurn c schema ctx [] s [] s
  | enum : BuiltInTurn c schema ctx as s es s2 →
      BuiltInTurn c schema ctx (.enum v :: as) s (.enum v :: es) s2
  | expr : XExp.build c schema b ctx s = .ok (e, s1) → e ≠ .nil → BuiltInTurn c schema ctx as s1 es s2 →
      BuiltInTurn c schema ctx (.expr b :: as) s (.expr e :: es) s2

end Verif
