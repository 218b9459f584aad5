import Verif.Model.FuncTypes
/-!
# Function variants: matching and return type resolution

Models `extensions/variants.go` and the parameter declarations of
`extensions/simple_extension.go`. Scalar, aggregate and window variants share these functions
(`extensions/variants.go:355-379,469-499,591-623`).

Simplifications common to this file: argument types are never nil interface values, and distinct
argument positions are distinct Go objects.
-/

namespace Verif

/-- `NullabilityHandling`, `extensions/simple_extension.go:209-215`; `unset` is the empty string,
`other` any further string. -/
inductive NullHandling where
  | unset | mirror | declaredOutput | discrete | other
  deriving DecidableEq, Repr

/-- `VariadicBehavior`, `extensions/simple_extension.go:217-221`; `consistent` is
`ParameterConsistency == ConsistentParams` -/
structure Variadic where
  min : Int
  max : Int
  consistent : Bool
  deriving DecidableEq, Repr

/-- `IsValidArgumentCount` of a non-nil receiver, `extensions/simple_extension.go:223-225` -/
def Variadic.validCount (v : Variadic) (count : Int) : Bool :=
  decide (v.min ≤ count) && (decide (count ≤ v.max) || decide (v.max = 0))

/-- `IsValidArgumentPosition` of a non-nil receiver, `extensions/simple_extension.go:227-229` -/
def Variadic.validPosition (v : Variadic) (i : Int) : Bool :=
  decide (0 ≤ i) && (decide (i ≤ v.max) || decide (v.max = 0))

/-- `FuncParameter`: `EnumArg`, `ValueArg`, `TypeArg` (`extensions/simple_extension.go:62-113`), or the
nil interface left by an entry with none of the keys (`extensions/simple_extension.go:123-192`). -/
inductive FuncParam where
  | enum (name : String) (options : List String)
  | value (t : FTy)
  | type (t : FTy)
  | missing

/-- `toTypeString`, `extensions/simple_extension.go:74-76,91-93,107`; a nil parameter panics -/
def FuncParam.toTypeString : FuncParam → Res String
  | .enum .. => .ok "req"
  | .value t => .ok t.shortString
  | .type _ => .ok "type"
  | .missing => .panic

/-- `GetTypeExpression`, `extensions/simple_extension.go:80-82,97-99,111-113` -/
def FuncParam.typeExpression : FuncParam → Res FTy
  | .enum name options => .ok (.enum false 0 0 name options)
  | .value t => .ok t
  | .type t => .ok t
  | .missing => .panic

/-- `signatureKey`, `extensions/simple_extension.go:246-255` -/
def signatureKey (params : List FuncParam) : Res String :=
  Res.mapL FuncParam.toTypeString params >>= fun ss => .ok ("_".intercalate ss)

/-- `CommonEnumType` as a parameter, `types/types.go:555` -/
def commonEnum : FTy := .enum true 0 0 "" []

/-- `getFuncDefFromArgList`, `extensions/variants.go:256-271` -/
def funcDefs : List FuncParam → Res (List FTy)
  | [] => .ok []
  | .value t :: ps => funcDefs ps >>= fun ts => .ok (t :: ts)
  | .enum .. :: ps => funcDefs ps >>= fun ts => .ok (commonEnum :: ts)
  | .type _ :: _ => .err
  | .missing :: _ => .err

/-- The receiver after a call of `WithNullability`: only `*IntervalDayType` changes itself
(`types/interval_day_type.go:21-24`; the other methods copy, see `Ty.withNullability`). -/
def Ty.afterWithNullability (t : Ty) (n : Nullability) : Ty :=
  match t with
  | .prec .intervalDay _ v p => .prec .intervalDay n v p
  | t => t

/-- the loop of `validateVariadicBehaviorForMatch`, `extensions/variants.go:247-251`: are `a` and the
following arguments pairwise equal, and the following arguments afterwards -/
def consistentFrom (a : Ty) : List Ty → Res (Bool × List Ty)
  | [] => .ok (true, [])
  | b :: rest =>
      Ty.equals a (b.withNullability a.nullability) >>= fun same =>
      let b := b.afterWithNullability a.nullability
      if same then consistentFrom b rest >>= fun r => .ok (r.1, b :: r.2)
      else .ok (false, b :: rest)

/-- `validateVariadicBehaviorForMatch`, `extensions/variants.go:239-254`, and the arguments
afterwards -/
def validateVariadic (v : Variadic) (args : List Ty) : Res (Bool × List Ty) :=
  if !v.validCount args.length then .ok (false, args)
  else if v.consistent then
    let first := (max (v.min - 1) 0).toNat
    match args.drop first with
    | [] => .ok (true, args)
    | a :: rest => consistentFrom a rest >>= fun r => .ok (r.1, args.take first ++ a :: r.2)
  else .ok (true, args)

/-- `matchArgumentAtCommon`, `extensions/variants.go:210-235` -/
def matchArgumentAtCommon (t : Ty) (pos : Nat) (nh : NullHandling) (defs : List FTy)
    (variadic : Option Variadic) : Res Bool :=
  let outOfRange := match variadic with
    | none => decide (defs.length ≤ pos)
    | some v => !v.validPosition pos
  if outOfRange then .ok false
  else
    (if pos < defs.length then Res.index defs pos else Res.index defs ((defs.length : Int) - 1))
      >>= fun p =>
    match nh with
    | .discrete => .ok (p.matchStrict t)
    | .mirror => .ok (p.matchLoose t)
    | .declaredOutput => .ok (p.matchLoose t)
    | _ => .err

/-- `matchArgumentAt`, `extensions/variants.go:199-208` -/
def matchArgumentAt (t : Ty) (pos : Int) (nh : NullHandling) (params : List FuncParam)
    (variadic : Option Variadic) : Res Bool :=
  if pos < 0 then .err
  else match funcDefs params with
    | .ok defs => matchArgumentAtCommon t pos.toNat nh defs variadic
    | .err => .ok false
    | .panic => .panic

/-- the loop of `matchArguments`, `extensions/variants.go:180-188`, from position `pos` on -/
def matchEach (nh : NullHandling) (defs : List FTy) (variadic : Option Variadic) :
    Nat → List Ty → Res Bool
  | _, [] => .ok true
  | pos, t :: ts =>
      matchArgumentAtCommon t pos nh defs variadic >>= fun b =>
      if b then matchEach nh defs variadic (pos + 1) ts else .ok false

mutual
/-- `getLeafParameterizedParams` of a type, `extensions/variants.go:661-676`, written by recursion on
the type instead of through `GetParameterizedParams` (children without parameters contribute
nothing). A user-defined type with parameters reaches the `panic` at 675. -/
def FTy.leaves : FTy → Res (List String)
  | .prim .. => .ok []
  | .any .. => .ok []
  | .enum .. => .ok []
  | .single _ _ p => .ok (if p.isVar then [p.str] else [])
  | .decimal _ p s => .ok (if p.isVar || s.isVar then [p.str, s.str] else [])
  | .list _ t => t.leaves
  | .map _ k v => k.leaves >>= fun a => v.leaves >>= fun b => .ok (a ++ b)
  | .struct _ ts => FTy.leavesList ts
  | .func _ ps r => FTy.leavesList ps >>= fun a => r.leaves >>= fun b => .ok (a ++ b)
  | .udt _ _ _ ps => if FParam.firstHasParam ps then .panic else .ok []
  | .derivation _ t => t.leaves
/-- the loop of `extensions/variants.go:668-671` -/
def FTy.leavesList : List FTy → Res (List String)
  | [] => .ok []
  | t :: ts => t.leaves >>= fun a => FTy.leavesList ts >>= fun b => .ok (a ++ b)
end

/-- `HasSyncParams`, `extensions/variants.go:626-655`; `seen` is `existingParamMap` -/
def hasSyncParams : List String → List FTy → Res Bool
  | _, [] => .ok false
  | seen, p :: ps =>
      p.leaves >>= fun leaves =>
      if leaves.any (seen.contains ·) then .ok true else hasSyncParams (leaves ++ seen) ps

/-- `AreSyncTypeParametersMatching`, `types/type_derivation.go:374-377` -/
def areSyncMatching (defs : List FTy) (args : List Ty) : Res Bool :=
  match buildNameValueMap defs args .empty with
  | .ok _ => .ok true
  | .err => .ok false
  | .panic => .panic

/-- the test and update at `extensions/variants.go:684-701` -/
def bindAny (name : String) (t : Ty) (bindings : GoMap String Ty) : Res (GoMap String Ty) :=
  if name = "any" then .ok bindings
  else match bindings.get name with
    | some e =>
        Ty.equals (e.withNullability NullabilityRequired) (t.withNullability NullabilityRequired)
          >>= fun same => if same then .ok bindings else .err
    | none => .ok (bindings.set name t)

mutual
/-- `validateAnyTypeBinding`, `extensions/variants.go:680-754`. The change that `WithNullability` makes
to an `interval_day` argument in place is left to `touchAny`: the comparisons read only types with the
nullability replaced. -/
def bindAnyTypes : FTy → Ty → GoMap String Ty → Res (GoMap String Ty)
  | .any _ name, t, b => bindAny name t b
  | .list _ p, t, b => match t with | .list _ _ t => bindAnyTypes p t b | _ => .ok b
  | .map _ k v, t, b =>
      match t with
      | .map _ _ k' v' => bindAnyTypes k k' b >>= fun b => bindAnyTypes v v' b
      | _ => .ok b
  | .struct _ ps, t, b =>
      match t with
      | .struct _ _ ts => if ts.length = ps.length then bindAnyTypesList ps ts b else .ok b
      | _ => .ok b
  | _, _, b => .ok b
/-- the loop of `extensions/variants.go:739-749` -/
def bindAnyTypesList : List FTy → List Ty → GoMap String Ty → Res (GoMap String Ty)
  | p :: ps, t :: ts, b => bindAnyTypes p t b >>= fun b => bindAnyTypesList ps ts b
  | _, _, b => .ok b
end

mutual
/-- the names looked up by `validateAnyTypeBinding`, in order, `extensions/variants.go:680-754` -/
def anyUses : FTy → Ty → List String
  | .any _ name, _ => if name = "any" then [] else [name]
  | .list _ p, t => match t with | .list _ _ t => anyUses p t | _ => []
  | .map _ k v, t => match t with | .map _ _ k' v' => anyUses k k' ++ anyUses v v' | _ => []
  | .struct _ ps, t =>
      match t with
      | .struct _ _ ts => if ts.length = ps.length then anyUsesList ps ts else []
      | _ => []
  | _, _ => []
/-- the loop of `extensions/variants.go:739-749` -/
def anyUsesList : List FTy → List Ty → List String
  | p :: ps, t :: ts => anyUses p t ++ anyUsesList ps ts
  | _, _ => []
end

mutual
/-- The argument after a successful `validateAnyTypeBinding`: with a name used more than once, every
use has been through `WithNullability(NullabilityRequired)` (`extensions/variants.go:692-693`). -/
def touchAny (uses : List String) : FTy → Ty → Ty
  | .any _ name, t =>
      if 2 ≤ uses.count name then t.afterWithNullability NullabilityRequired else t
  | .list _ p, t => match t with | .list n v t => .list n v (touchAny uses p t) | t => t
  | .map _ k e, t =>
      match t with
      | .map n v k' e' => .map n v (touchAny uses k k') (touchAny uses e e')
      | t => t
  | .struct _ ps, t =>
      match t with
      | .struct n v ts =>
          .struct n v (if ts.length = ps.length then touchAnyList uses ps ts else ts)
      | t => t
  | _, t => t
/-- ... for each of the arguments, `extensions/variants.go:739-749,776-780` -/
def touchAnyList (uses : List String) : List FTy → List Ty → List Ty
  | p :: ps, t :: ts => touchAny uses p t :: touchAnyList uses ps ts
  | _, ts => ts
end

/-- the parameters expanded for variadic arguments, `extensions/variants.go:760-771`; an empty
parameter list panics (slice bounds) -/
def expandParams (defs : List FTy) (args : List Ty) (variadic : Option Variadic) : Res (List FTy) :=
  if variadic.isSome && decide (defs.length < args.length) then
    match defs.getLast? with
    | none => .panic
    | some last =>
        .ok (defs.dropLast ++ List.replicate (args.length - defs.length + 1) last)
  else .ok defs

/-- `ValidateConstrainedAnyTypeConsistency`, `extensions/variants.go:758-783`, and the arguments
afterwards -/
def validateAny (defs : List FTy) (args : List Ty) (variadic : Option Variadic) : Res (List Ty) :=
  expandParams defs args variadic >>= fun defs =>
  bindAnyTypesList defs args .empty >>= fun _ =>
  .ok (touchAnyList (anyUsesList defs args) defs args)

/-- the argument count and variadic tests of `matchArguments`, `extensions/variants.go:166-174`, and the
arguments afterwards; slicing panics when there are no parameters or too few arguments -/
def matchCount (params : List FuncParam) (variadic : Option Variadic) (args : List Ty) :
    Res (Bool × List Ty) :=
  match variadic with
  | none => .ok (decide (args.length = params.length), args)
  | some v =>
      if params.length = 0 || args.length < params.length - 1 then .panic
      else
        validateVariadic v (args.drop (params.length - 1)) >>= fun r =>
        .ok (r.1, args.take (params.length - 1) ++ r.2)

/-- `matchArguments`, `extensions/variants.go:165-197`, the `Match` method of all variants, and the
arguments afterwards. -/
def matchArguments (nh : NullHandling) (params : List FuncParam) (variadic : Option Variadic)
    (args : List Ty) : Res (Bool × List Ty) :=
  matchCount params variadic args >>= fun r =>
  if !r.1 then .ok (false, r.2)
  else match funcDefs params with
    | .err => .ok (false, r.2)
    | .panic => .panic
    | .ok defs =>
        matchEach nh defs variadic 0 r.2 >>= fun b =>
        if !b then .ok (false, r.2)
        else hasSyncParams [] defs >>= fun sync =>
          if sync then areSyncMatching defs r.2 >>= fun b => .ok (b, r.2)
          else validateAny defs r.2 variadic >>= fun args => .ok (true, args)

/-- `minArgumentCount`, `extensions/variants.go:291-296` -/
def minArgumentCount (params : List FuncParam) : Option Variadic → Int
  | none => params.length
  | some v => params.length + v.min

/-- `maxArgumentCount`, `extensions/variants.go:298-303` -/
def maxArgumentCount (params : List FuncParam) : Option Variadic → Int
  | none => params.length
  | some v => params.length + v.max

/-- `validateType`, `extensions/variants.go:47-77`: is the argument non-nullable? -/
def validateType (p : FuncParam) (actual : Ty) (nh : NullHandling) : Res Bool :=
  match p with
  | .enum .. => match actual with
      | .enum true _ _ _ _ => .ok true
      | _ => .err
  | .value t =>
      let isNullable := decide (actual.nullability ≠ NullabilityRequired)
      if nh = .discrete && isNullable != decide (t.nullability = NullabilityNullable) then .err
      else .ok (!isNullable)
  | .type _ => .err
  | .missing => .ok true

/-- the loop of `extensions/variants.go:103-112`, up to the shorter of both lists -/
def validateTypes (nh : NullHandling) : List FuncParam → List Ty → Res Bool
  | p :: ps, t :: ts => validateType p t nh >>= fun b => validateTypes nh ps ts >>= fun c => .ok (b && c)
  | _, _ => .ok true

/-- the loop of `extensions/variants.go:118-124` -/
def validateRest (nh : NullHandling) (last : FuncParam) : List Ty → Res Bool
  | [] => .ok true
  | t :: ts => validateType last t nh >>= fun b => validateRest nh last ts >>= fun c => .ok (b && c)

/-- the argument count test, `extensions/variants.go:87-100` -/
def countOk (params : List FuncParam) (args : List Ty) : Option Variadic → Bool
  | none => decide (params.length = args.length)
  | some v =>
      let n : Int := args.length - (params.length - 1 : Int)
      decide (0 ≤ n) && v.validCount n

/-- part of the test at `extensions/variants.go:115` -/
def isConsistent : Option Variadic → Bool
  | some v => v.consistent
  | none => false

/-- `EvaluateTypeExpression`, `extensions/variants.go:85-163`, the `ResolveType` method of all
variants. `anchor` stands for `registry.GetTypeAnchor(TypeID{Name: _, URN: urn})`. -/
def evaluateTypeExpression (anchor : String → UInt32) (nh : NullHandling) (ret : FTy)
    (params : List FuncParam) (variadic : Option Variadic) (args : List Ty) : Res Ty :=
  if !countOk params args variadic then .err
  else
    validateTypes nh params args >>= fun nonNull =>
    (if isConsistent variadic
        && decide (params.length < args.length) then
      match params.getLast? with
      | none => .panic
      | some last => validateRest nh last (args.drop params.length)
    else .ok true) >>= fun restNonNull =>
    matchArguments nh params variadic args >>= fun r =>
    if !r.1 then .err
    else
      Res.mapL FuncParam.typeExpression params >>= fun defs =>
      ret.returnType defs r.2 >>= fun out =>
      let out := match out, ret with
        | .udt n v _ ps, .udt _ _ name _ => .udt n v (anchor name) ps
        | out, _ => out
      if nh = .mirror || nh = .unset then
        .ok (out.withNullability
          (if nonNull && restNonNull then NullabilityRequired else NullabilityNullable))
      else .ok out

end Verif
