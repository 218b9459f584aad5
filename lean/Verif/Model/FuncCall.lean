import Verif.Model.Collection
import Verif.Model.LocalTypes
import Verif.Model.Rel
import Verif.Model.ExprProto
import Verif.Model.FuncName
/-!
# Building calls of registered functions

Models `NewScalarFunc`, `NewWindowFunc`, `NewAggregateFunc`, `resolveVariant` and the constructors of
custom calls of `expr/functions.go`. The registry (`expr/utils.go:31-41`) is a collection and an
extension set; the set is changed in place, so the constructors return it.

Simplification: a call that fails may leave new anchors in the set and, like one that succeeds, may
have changed the nullability of `interval_day` types of the arguments in place
(`matchArguments`, `types/interval_day_type.go:21-24`); the set after a failure and the argument
types after the call are left out.
-/

namespace Verif

/-- the argument types, `expr/functions.go:216-224`: types given as arguments and nil arguments have
no case and are left out -/
def callTypes : List EArg → Res (List Ty)
  | [] => .ok []
  | .enum _ :: as => callTypes as >>= fun ts => .ok (.enum true 0 0 "" [] :: ts)
  | .expr e :: as => e.getType >>= fun t => callTypes as >>= fun ts => .ok (t :: ts)
  | .type _ :: as => callTypes as
  | .nil :: as => callTypes as

/-- the signature part of an argument type, `expr/functions.go:231-244` -/
def callSignature (s : ExtSet) (t : Ty) : Res String :=
  match t with
  | .enum true .. => .ok "req"
  | .udt _ _ ref _ =>
      match s.decode .type ref with
      | none => .err
      | some id => .ok ("u!" ++ id.name)
  | t => .ok t.shortString

/-- the search for the declaration, `expr/functions.go:226-255`; `getter` is the lookup of the
collection -/
def findVariant (s : ExtSet) (getter : ExtId → Option Variant) (id : ExtId) (ts : List Ty) :
    Res Variant :=
  match getter id with
  | some v => .ok v
  | none =>
    if ':' ∈ id.name.toList then .err
    else
      Res.mapL (callSignature s) ts >>= fun sigs =>
      match getter { id with name := id.name ++ (":" ++ "_".intercalate sigs) } with
      | some v => .ok v
      | none => .err

/-- `ResolveType`, `extensions/variants.go:355-357,469-471,591-593`, and the set afterwards: the type
reference of a user-defined return type is asked for (`extensions/variants.go:146-154`). A nil return
type panics; simplification: so does it when the argument count is wrong, where Go may return an error
first. -/
def Variant.resolveType (v : Variant) (s : ExtSet) (ts : List Ty) : Res (Ty × ExtSet) :=
  match v.impl.ret with
  | none => .panic
  | some ret =>
    evaluateTypeExpression (fun _ => 0) v.impl.nullability ret v.impl.args v.impl.variadic ts
      >>= fun out =>
    match out, ret with
    | .udt n var _ ps, .udt _ _ name _ =>
        s.getAnchor .type ⟨v.urn, name⟩ >>= fun r => .ok (.udt n var r.1 ps, r.2)
    | out, _ => .ok (out, s)

/-- `resolveVariant`, `expr/functions.go:212-262` -/
def resolveVariant (c : Collection) (k : FuncKind) (s : ExtSet) (id : ExtId) (args : List EArg) :
    Res (Variant × Ty × ExtSet) :=
  callTypes args >>= fun ts =>
  findVariant s (c.getFunc k) id ts >>= fun v =>
  v.resolveType s ts >>= fun r => .ok (v, r.1, r.2)

/-- `ID` of a variant, `extensions/variants.go:361-363,475-477,597-599` -/
def Variant.id (v : Variant) : Res ExtId := v.compoundName >>= fun n => .ok ⟨v.urn, n⟩

/-- the reference, declaration, options and type of the new call, `expr/functions.go:284-294`. The
declaration is represented by its compound name. -/
def callOf (v : Variant) (s : ExtSet) (opts : List (String × List String)) (out : Ty) :
    Res (FnAttrs × ExtSet) :=
  v.id >>= fun id => s.getAnchor .func id >>= fun r => .ok (⟨r.1, id.name, opts, out⟩, r.2)

/-- `NewScalarFunc`, `expr/functions.go:276-295` -/
def newScalarFunc (c : Collection) (s : ExtSet) (id : ExtId) (opts : List (String × List String))
    (args : List EArg) : Res (Expr × ExtSet) :=
  resolveVariant c .scalar s id args >>= fun (v, out, s) =>
  callOf v s opts out >>= fun (a, s) => .ok (.scalar a args, s)

/-- `AggPhaseInitialToResult`, `types/types.go:163` -/
def phaseInitialToResult : Int32 := 3

/-- `NewWindowFunc`, `expr/functions.go:506-533`; bounds, sorts and partitions are not set -/
def newWindowFunc (c : Collection) (s : ExtSet) (id : ExtId) (opts : List (String × List String))
    (invocation phase : Int32) (args : List EArg) : Res (Expr × ExtSet) :=
  resolveVariant c .window s id args >>= fun (v, out, s) =>
  if v.impl.decomposable = "NONE" && phase ≠ phaseInitialToResult then .err
  else
    callOf v s opts out >>= fun (a, s) =>
    .ok (.window a ⟨phase, invocation, 0, none, none⟩ args [] [], s)

/-- `NewAggregateFunc`, `expr/functions.go:782-806` -/
def newAggregateFunc (c : Collection) (s : ExtSet) (id : ExtId) (opts : List (String × List String))
    (invocation phase : Int32) (sorts : List ESort) (args : List EArg) : Res (AggFn × ExtSet) :=
  resolveVariant c .aggregate s id args >>= fun (v, out, s) =>
  callOf v s opts out >>= fun (a, s) => .ok (⟨a, phase, invocation, args, sorts⟩, s)

/-- `NewCustomScalarFunc`, `expr/functions.go:190-205`; a nil output type is `none` -/
def newCustomScalarFunc (s : ExtSet) (v : Variant) (out : Option Ty)
    (opts : List (String × List String)) (args : List EArg) : Res (Expr × ExtSet) :=
  match out with
  | none => .err
  | some out => callOf v s opts out >>= fun (a, s) => .ok (.scalar a args, s)

/-- `NewCustomWindowFunc`, `expr/functions.go:486-504` -/
def newCustomWindowFunc (s : ExtSet) (v : Variant) (out : Option Ty)
    (opts : List (String × List String)) (invocation phase : Int32) (args : List EArg) :
    Res (Expr × ExtSet) :=
  match out with
  | none => .err
  | some out =>
    callOf v s opts out >>= fun (a, s) =>
    .ok (.window a ⟨phase, invocation, 0, none, none⟩ args [] [], s)

/-- `NewCustomAggregateFunc`, `expr/functions.go:808-826`; the declaration is not set, `""` stands for
the nil pointer -/
def newCustomAggregateFunc (s : ExtSet) (v : Variant) (out : Option Ty)
    (opts : List (String × List String)) (invocation phase : Int32) (sorts : List ESort)
    (args : List EArg) : Res (AggFn × ExtSet) :=
  match out with
  | none => .err
  | some out =>
    callOf v s opts out >>= fun (a, s) =>
    .ok (⟨{ a with declaration := "" }, phase, invocation, args, sorts⟩, s)

/-- `CompoundName` of a call, `expr/functions.go:298,536,872`: a call without declaration panics -/
def FnAttrs.compoundName (a : FnAttrs) : Res String :=
  if a.declaration = "" then .panic else .ok a.declaration

/-- `LookupScalarFunction`, `LookupAggregateFunction`, `LookupWindowFunction`,
`extensions/extension_mgr.go:449-474` -/
def ExtSet.lookupFunc (s : ExtSet) (c : Collection) (k : FuncKind) (anchor : UInt32) : Option Variant :=
  match s.decode .func anchor with
  | none => none
  | some id => c.getFunc k id

/-- the declaration in a call that is read, represented by its compound name
(`expr/expression.go:83-95`, see `callOf`) -/
def ExtSet.declarationOf (s : ExtSet) (c : Collection) (k : FuncKind) (anchor : UInt32) :
    Option String :=
  match s.lookupFunc c k anchor with
  | none => none
  | some v =>
    match v.compoundName with
    | .ok n => some n
    | _ => none

/-- The reference and compound name of the call made for a function without a declaration, and the set
afterwards: `expr/expression.go:85,128-129`, `expr/functions.go:856` with `newCustomScalarFunc` and its
siblings; the kind of function does not matter -/
def ExtSet.customCall (s : ExtSet) (id : ExtId) : Res ((UInt32 × String) × ExtSet) :=
  newFuncVariant .scalar id >>= fun v => v.id >>= fun id' =>
  s.getAnchor .func id' >>= fun r => .ok ((r.1, id'.name), r.2)

/-- The registry made of a set and a collection (`NewExtensionRegistry`, `expr/utils.go:85-90`), as far
as functions are concerned; relations and masks are `rest`'s. Simplification: see `Reg`. -/
def Reg.ofSet (rest : Reg) (c : Collection) (s : ExtSet) : Reg :=
  { rest with
    decodeFunc := s.decode .func
    scalar := s.declarationOf c .scalar
    window := s.declarationOf c .window
    aggregate := s.declarationOf c .aggregate
    custom := fun id => s.customCall id >>= fun r => .ok r.1 }

end Verif
