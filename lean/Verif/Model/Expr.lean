import Verif.Model.Visit
/-!
# Expressions as values: equality, types, constructors

Models `Equals`, `GetType` of the expression types (`expr/expression.go`, `expr/functions.go`,
`expr/lambda.go`, `expr/field_reference.go`, `expr/literals.go`, the interval literals and
`plan/subquery.go`), and the constructors `NewIfThen`, `NewSwitch`.

Here an expression is a tree (memory is modelled in `Verif.Model.Visit`). Pointer comparisons are
represented as follows: a mask and a relation carry their address; the two places that compare
pointers before comparing contents take a `Sharing`, which says which pairs are the same object.
-/

namespace Verif

mutual
/-- A value of the interface `Expression` (`expr/expression.go:396-437`), nil included. -/
inductive Expr where
  | nil
  /-- the literal types (never the nil literal) -/
  | lit (l : Lit)
  /-- `*FieldReference`, `expr/field_reference.go:549-554` -/
  | fieldRef (root : ERoot) (ref : ERef) (knownType : Option Ty)
  /-- `*IfThen`, `expr/expression.go:444-447` -/
  | ifThen (ifs : List EPair) (els : Expr)
  /-- `*Cast`, `expr/expression.go:619-623` -/
  | cast (ty : Ty) (input : Expr) (fail : Int32)
  /-- `*DynamicParameter`, `expr/expression.go:678-681` -/
  | dynParam (ty : Ty) (ref : UInt32)
  /-- `*SwitchExpr`, `expr/expression.go:726-733` -/
  | switch (mtch : Expr) (ifs : List ECase) (els : Expr)
  /-- `*SingularOrList`, `expr/expression.go:984-987` -/
  | singularOr (value : Expr) (options : List Expr)
  /-- `*MultiOrList`, `expr/expression.go:1087-1090` -/
  | multiOr (value : List Expr) (options : List ERow)
  /-- `*MapExpr`, `expr/expression.go:1249-1253` -/
  | mapE (nullable : Bool) (variation : UInt32) (kvs : List EPair)
  /-- `*StructExpr`, `expr/expression.go:1381-1385` -/
  | structE (nullable : Bool) (variation : UInt32) (fields : List Expr)
  /-- `*ListExpr`, `expr/expression.go:1493-1497` -/
  | listE (nullable : Bool) (variation : UInt32) (values : List Expr)
  /-- `*ScalarFunction`, `expr/functions.go:173-180` -/
  | scalar (a : FnAttrs) (args : List EArg)
  /-- `*WindowFunction`, `expr/functions.go:469-484` -/
  | window (a : FnAttrs) (w : WinAttrs) (args : List EArg) (sorts : List ESort)
      (partitions : List Expr)
  /-- `*Lambda`, `expr/lambda.go:12-15` -/
  | lambda (n : Nullability) (variation : UInt32) (params : List Ty) (body : Expr)
  /-- `*ScalarSubquery`, `plan/subquery.go:79-83` -/
  | scalarSubquery (input : RelRef)
  /-- `*InPredicateSubquery`, `plan/subquery.go:140-146` -/
  | inPredicate (needles : List Expr) (haystack : RelRef)
  /-- `*SetPredicateSubquery`, `plan/subquery.go:268-274` -/
  | setPredicate (op : Int32) (tuples : RelRef)
  /-- `*SetComparisonSubquery`, `plan/subquery.go:362-370`; `none` is the nil relation -/
  | setComparison (reduction comparison : Int32) (left : Expr) (right : Option RelRef)
/-- A pair of expressions (`expr/expression.go:439-442,1252`). -/
inductive EPair where
  | mk (a b : Expr)
/-- A switch case (`expr/expression.go:728-731`). -/
inductive ECase where
  | mk (l : Lit) (e : Expr)
/-- One option of a multi-or-list. -/
inductive ERow where
  | mk (es : List Expr)
/-- The root of a field reference (`expr/field_reference.go:20-40`). -/
inductive ERoot where
  | rootReference
  | outer (steps : UInt32)
  | lambdaParam (steps : UInt32)
  | expr (e : Expr)
/-- A `types.FuncArg` (`types/types.go:441-448`): nil, an expression, a type, an enum value. -/
inductive EArg where
  | nil
  | expr (e : Expr)
  | type (t : Ty)
  | enum (s : String)
/-- `SortField` (`expr/functions.go:50-53`). -/
inductive ESort where
  | mk (e : Expr) (kind : SortKind)
end

/-- `e == nil` -/
def Expr.isNil : Expr → Bool
  | .nil => true
  | _ => false

/-! ## Equals -/

/-- Which pairs of objects are one object: the pointer comparisons of
`expr/field_reference.go:156,230,298` and `expr/functions.go:18`. -/
structure Sharing where
  seg : Seg → Seg → Bool
  arg : EArg → EArg → Bool

/-- A `float32` bit pattern that is not a number (IEEE 754, for `==` in
`expr/literals.go:227`). -/
def nan32 (b : UInt32) : Bool := (b &&& 0x7f800000) == 0x7f800000 && (b &&& 0x007fffff) != 0
/-- ... for `float64` -/
def nan64 (b : UInt64) : Bool :=
  (b &&& 0x7ff0000000000000) == 0x7ff0000000000000 && (b &&& 0x000fffffffffffff) != 0
/-- a `float32` zero of either sign -/
def zero32 (b : UInt32) : Bool := (b &&& 0x7fffffff) == 0
/-- a `float64` zero of either sign -/
def zero64 (b : UInt64) : Bool := (b &&& 0x7fffffffffffffff) == 0

/-- Go's `t.Value == other.Value` with the type assertion to the same instantiation,
`expr/literals.go:225-228`. (`other` stands for a single value of a type not listed in `PVal`.) -/
def PVal.goEq : PVal → PVal → Bool
  | .float32 a, .float32 b => !nan32 a && !nan32 b && (a == b || (zero32 a && zero32 b))
  | .float64 a, .float64 b => !nan64 a && !nan64 b && (a == b || (zero64 a && zero64 b))
  | a, b => decide (a = b)

open Classical in
/-- `reflect.DeepEqual(t.Value, other.Value)`, `expr/literals.go:686`: identical contents
(bookkeeping fields of generated messages are taken to be equal). -/
noncomputable def ProtoVal.deepEq (a b : ProtoVal) : Bool := decide (a = b)

mutual
/-- The literals' `Equals`: `NullLiteral` `expr/literals.go:139-145`, `PrimitiveLiteral` 225-230,
`NestedLiteral` 318-325, `MapLiteral` 397-405, `ByteSliceLiteral` 468-475, `ProtoLiteral` 683-689,
`expr/interval_year_to_month.go:57-62`, `expr/interval_compound_literal.go:99-104`. -/
noncomputable def Lit.equals : Lit → Lit → Res Bool
  | .nil, _ => .panic
  | .null t, .null t' => t'.equals t
  | .prim v t, .prim v' t' =>
      -- the type assertion to `*PrimitiveLiteral[T]` comes first; two values of different
      -- instantiations are never equal
      t.equals t' >>= fun b => if b then .ok (v.goEq v') else .ok false
  | .bytes k b t, .bytes k' b' t' =>
      if k ≠ k' then .ok false
      else t.equals t' >>= fun r => if r then .ok (decide (b = b')) else .ok false
  | .struct vs t, .struct vs' t' =>
      t.equals t' >>= fun b =>
      if b then (if vs.length ≠ vs'.length then .ok false else Lit.equalsLoop vs vs') else .ok false
  | .list vs t, .list vs' t' =>
      t.equals t' >>= fun b =>
      if b then (if vs.length ≠ vs'.length then .ok false else Lit.equalsLoop vs vs') else .ok false
  | .map kvs t, .map kvs' t' =>
      t.equals t' >>= fun b =>
      if b then (if kvs.length ≠ kvs'.length then .ok false else KeyValue.equalsLoop kvs kvs')
      else .ok false
  | .proto v t, .proto v' t' =>
      t.equals t' >>= fun b => if b then .ok (v.deepEq v') else .ok false
  | .intervalYearToMonth y m n, .intervalYearToMonth y' m' n' =>
      .ok (decide (y = y' ∧ m = m' ∧ n = n'))
  | .intervalCompound y m d s ss p n, .intervalCompound y' m' d' s' ss' p' n' =>
      .ok (decide (y = y' ∧ m = m' ∧ d = d' ∧ s = s' ∧ ss = ss' ∧ p = p' ∧ n = n'))
  | _, _ => .ok false
/-- the element loop of `slices.EqualFunc`, lengths already compared, `expr/literals.go:320-322` -/
noncomputable def Lit.equalsLoop : List Lit → List Lit → Res Bool
  | [], _ => .ok true
  | _ :: _, [] => .panic
  | l :: ls, r :: rs => Lit.equals l r >>= fun b => if b then Lit.equalsLoop ls rs else .ok false
/-- the entry loop, `expr/literals.go:399-402` -/
noncomputable def KeyValue.equalsLoop : List KeyValue → List KeyValue → Res Bool
  | [], _ => .ok true
  | _ :: _, [] => .panic
  | .mk k v :: ls, .mk k' v' :: rs =>
      Lit.equals k k' >>= fun b =>
      if b then
        Lit.equals v v' >>= fun b => if b then KeyValue.equalsLoop ls rs else .ok false
      else .ok false
end

/-- The segments' `Equals`, `expr/field_reference.go:150-169,223-243,291-311`. -/
noncomputable def Seg.equals (same : Seg → Seg → Bool) : Seg → Seg → Res Bool
  | .nil, _ => .panic
  | .mapKey k c, .mapKey k' c' =>
      k.equals k' >>= fun b =>
      if b then
        (if same c c' || (c.isNil && c'.isNil) then .ok true
         else if c.isNil || c'.isNil then .ok false else Seg.equals same c c')
      else .ok false
  | .structField f c, .structField f' c' =>
      if f ≠ f' then .ok false
      else if same c c' || (c.isNil && c'.isNil) then .ok true
      else if c.isNil || c'.isNil then .ok false else Seg.equals same c c'
  | .listElement f c, .listElement f' c' =>
      if f ≠ f' then .ok false
      else if same c c' || (c.isNil && c'.isNil) then .ok true
      else if c.isNil || c'.isNil then .ok false else Seg.equals same c c'
  | _, _ => .ok false

/-- The second half of `FieldReference.Equals`, `expr/field_reference.go:731-746`. -/
noncomputable def ERef.equals (same : Seg → Seg → Bool) : ERef → ERef → Res Bool
  | .seg s, .seg s' => Seg.equals same s s'
  | .mask a, .mask a' => .ok (a == a')
  | _, _ => .ok false

mutual
/-- The `Equals` methods: `IfThen` `expr/expression.go:570-587`, `Cast` 658-666, `DynamicParameter`
712-720, `SwitchExpr` 907-929, `SingularOrList` 1046-1057, `MultiOrList` 1176-1187, `MapExpr`
1334-1348, `StructExpr` 1457-1466, `ListExpr` 1575-1586; `ScalarFunction` `expr/functions.go:413-435`,
`WindowFunction` 641-671; `Lambda` `expr/lambda.go:45-51`; `FieldReference`
`expr/field_reference.go:696-750`; the subqueries `plan/subquery.go:126-132,214-231,323-330,449-466`.
Calling it on nil panics; comparing with nil answers false. -/
noncomputable def Expr.equals (sh : Sharing) : Expr → Expr → Res Bool
  | .nil, _ => .panic
  | .lit l, .lit l' => l.equals l'
  | .fieldRef root ref _, .fieldRef root' ref' _ =>
      ERoot.equals sh root root' >>= fun b => if b then ref.equals sh.seg ref' else .ok false
  | .ifThen ifs els, .ifThen ifs' els' =>
      (if els.isNil then .ok true else Expr.equals sh els els') >>= fun b =>
      if b then
        (if ifs.length ≠ ifs'.length then .ok false else EPair.equalsLoop sh ifs ifs')
      else .ok false
  | .cast ty input fail, .cast ty' input' fail' =>
      ty.equals ty' >>= fun b =>
      if b then
        Expr.equals sh input input' >>= fun b => if b then .ok (fail == fail') else .ok false
      else .ok false
  | .dynParam ty ref, .dynParam ty' ref' => if ref = ref' then ty.equals ty' else .ok false
  | .switch m ifs els, .switch m' ifs' els' =>
      Expr.equals sh m m' >>= fun b =>
      if b then
        (if els.isNil then .ok els'.isNil else Expr.equals sh els els') >>= fun b =>
        if b then
          (if ifs.length ≠ ifs'.length then .ok false else ECase.equalsLoop sh ifs ifs')
        else .ok false
      else .ok false
  | .singularOr v os, .singularOr v' os' =>
      Expr.equals sh v v' >>= fun b =>
      if b then (if os.length ≠ os'.length then .ok false else Expr.equalsLoop sh os os')
      else .ok false
  | .multiOr vs os, .multiOr vs' os' =>
      (if vs.length ≠ vs'.length then .ok false else Expr.equalsLoop sh vs vs') >>= fun b =>
      if b then (if os.length ≠ os'.length then .ok false else ERow.equalsLoop sh os os')
      else .ok false
  | .mapE n v kvs, .mapE n' v' kvs' =>
      if n ≠ n' ∨ v ≠ v' then .ok false
      else if kvs.length ≠ kvs'.length then .ok false else EPair.equalsLoop sh kvs kvs'
  | .structE n v fs, .structE n' v' fs' =>
      if n ≠ n' ∨ v ≠ v' then .ok false
      else if fs.length ≠ fs'.length then .ok false else Expr.equalsLoop sh fs fs'
  | .listE n v fs, .listE n' v' fs' =>
      if n ≠ n' ∨ v ≠ v' then .ok false
      else if fs.length ≠ fs'.length then .ok false else Expr.equalsLoop sh fs fs'
  | .scalar a args, .scalar a' args' =>
      if a.funcRef ≠ a'.funcRef then .ok false
      else a.outputType.equals a'.outputType >>= fun b =>
      if b then
        EArg.equalsLoop sh args args' >>= fun b =>
        if b then .ok (decide (a.options = a'.options)) else .ok false
      else .ok false
  | .window a w args sorts parts, .window a' w' args' sorts' parts' =>
      if a.funcRef ≠ a'.funcRef then .ok false
      else a.outputType.equals a'.outputType >>= fun b =>
      if b then
        (if w.phase ≠ w'.phase ∨ w.invocation ≠ w'.invocation then .ok false
         else if w.lower ≠ w'.lower ∨ w.upper ≠ w'.upper then .ok false
         else if a.options ≠ a'.options then .ok false
         else
          (if parts.length ≠ parts'.length then .ok false else Expr.equalsLoop sh parts parts')
            >>= fun b =>
          if b then
            (if sorts.length ≠ sorts'.length then .ok false else ESort.equalsLoop sh sorts sorts')
              >>= fun b =>
            if b then
              (if args.length ≠ args'.length then .ok false else EArg.equalsLoop sh args args')
            else .ok false
          else .ok false)
      else .ok false
  | .lambda n v ps body, .lambda n' v' ps' body' =>
      (Ty.struct n v ps).equals (.struct n' v' ps') >>= fun b =>
      if b then Expr.equals sh body body' else .ok false
  | .scalarSubquery r, .scalarSubquery r' => .ok (r.addr == r'.addr)
  | .inPredicate ns r, .inPredicate ns' r' =>
      if ns.length ≠ ns'.length then .ok false
      else Expr.equalsLoop sh ns ns' >>= fun b => if b then .ok (r.addr == r'.addr) else .ok false
  | .setPredicate op r, .setPredicate op' r' => .ok (decide (op = op') && r.addr == r'.addr)
  | .setComparison red cmp l r, .setComparison red' cmp' l' r' =>
      if l.isNil || l'.isNil then .ok (l.isNil && l'.isNil)
      else if r.isNone || r'.isNone then .ok (r.isNone && r'.isNone)
      else if red = red' ∧ cmp = cmp' then
        Expr.equals sh l l' >>= fun b =>
        if b then .ok (decide (r.map RelRef.addr = r'.map RelRef.addr)) else .ok false
      else .ok false
  | _, _ => .ok false
/-- the element loop of `slices.EqualFunc(.., exprEqual)` after the length check
(`expr/expression.go:982,1056`) -/
noncomputable def Expr.equalsLoop (sh : Sharing) : List Expr → List Expr → Res Bool
  | [], _ => .ok true
  | _ :: _, [] => .panic
  | l :: ls, r :: rs =>
      Expr.equals sh l r >>= fun b => if b then Expr.equalsLoop sh ls rs else .ok false
/-- `expr/expression.go:583-586,1344-1347` -/
noncomputable def EPair.equalsLoop (sh : Sharing) : List EPair → List EPair → Res Bool
  | [], _ => .ok true
  | _ :: _, [] => .panic
  | .mk a b :: ls, .mk a' b' :: rs =>
      Expr.equals sh a a' >>= fun x =>
      if x then
        Expr.equals sh b b' >>= fun x => if x then EPair.equalsLoop sh ls rs else .ok false
      else .ok false
/-- `expr/expression.go:922-928` -/
noncomputable def ECase.equalsLoop (sh : Sharing) : List ECase → List ECase → Res Bool
  | [], _ => .ok true
  | _ :: _, [] => .panic
  | .mk a b :: ls, .mk a' b' :: rs =>
      a.equals a' >>= fun x =>
      if x then
        Expr.equals sh b b' >>= fun x => if x then ECase.equalsLoop sh ls rs else .ok false
      else .ok false
/-- `expr/expression.go:1183-1186` -/
noncomputable def ERow.equalsLoop (sh : Sharing) : List ERow → List ERow → Res Bool
  | [], _ => .ok true
  | _ :: _, [] => .panic
  | .mk a :: ls, .mk a' :: rs =>
      (if a.length ≠ a'.length then .ok false else Expr.equalsLoop sh a a') >>= fun x =>
      if x then ERow.equalsLoop sh ls rs else .ok false
/-- `expr/field_reference.go:698-729` -/
noncomputable def ERoot.equals (sh : Sharing) : ERoot → ERoot → Res Bool
  | .outer n, .outer n' => .ok (n == n')
  | .lambdaParam n, .lambdaParam n' => .ok (n == n')
  | .expr e, .expr e' => Expr.equals sh e e'
  | .rootReference, .rootReference => .ok true
  | _, _ => .ok false
/-- `FuncArgsEqual`, `expr/functions.go:17-47`; the nil argument is only equal to itself -/
noncomputable def EArg.equals (sh : Sharing) : EArg → EArg → Res Bool
  | .nil, .nil => .ok true
  | .expr e, .expr e' => if sh.arg (.expr e) (.expr e') then .ok true else Expr.equals sh e e'
  | .type t, .type t' => if sh.arg (.type t) (.type t') then .ok true else t.equals t'
  | .enum s, .enum s' => .ok (decide (s = s'))
  | _, _ => .ok false
/-- the argument loop: `expr/functions.go:426-430` (indexing the other argument list, panic when it
is shorter) and, after a length check, `expr/functions.go:666` -/
noncomputable def EArg.equalsLoop (sh : Sharing) : List EArg → List EArg → Res Bool
  | [], _ => .ok true
  | _ :: _, [] => .panic
  | l :: ls, r :: rs =>
      EArg.equals sh l r >>= fun b => if b then EArg.equalsLoop sh ls rs else .ok false
/-- `expr/functions.go:661-663` -/
noncomputable def ESort.equalsLoop (sh : Sharing) : List ESort → List ESort → Res Bool
  | [], _ => .ok true
  | _ :: _, [] => .panic
  | .mk e k :: ls, .mk e' k' :: rs =>
      Expr.equals sh e e' >>= fun b =>
      if b then (if k = k' then ESort.equalsLoop sh ls rs else .ok false) else .ok false
end

/-! ## GetType -/

mutual
/-- The `GetType` methods: literals (`Lit.getType`), `FieldReference`
`expr/field_reference.go:752-754`, `IfThen` `expr/expression.go:543-545`, `Cast` 642-644,
`DynamicParameter` 699, `SwitchExpr` 855-880, `SingularOrList` 1027-1029, `MultiOrList` 1146-1148,
`MapExpr` 1299-1309, `StructExpr` 1425-1435, `ListExpr` 1544-1553, `ScalarFunction`
`expr/functions.go:386`, `WindowFunction` 628, `Lambda` `expr/lambda.go:37-43`, subqueries
`plan/subquery.go:97-104,184-186,298-300,422-424`. Simplification: a field reference whose type is
not known returns a nil type in Go; here that is a panic already. -/
def Expr.getType : Expr → Res Ty
  | .nil => .panic
  | .lit l => l.getType
  | .fieldRef _ _ (some t) => .ok t
  | .fieldRef _ _ none => .panic
  | .ifThen _ els => els.getType
  | .cast ty _ _ => .ok ty
  | .dynParam ty _ => .ok ty
  | .switch _ ifs els =>
      ECase.branchType ifs none >>= fun t =>
      match t with
      | none => .panic
      | some t =>
          if els.isNil then .ok (t.withNullability NullabilityNullable)
          else if t.nullability == NullabilityNullable then .ok t
          else els.getType
  | .singularOr _ _ => .ok (.prim .boolean NullabilityRequired 0)
  | .multiOr _ _ => .ok (.prim .boolean NullabilityRequired 0)
  | .mapE n v kvs =>
      match kvs with
      | [] => .panic
      | .mk a b :: _ => a.getType >>= fun k => b.getType >>= fun e => .ok (.map (getNullability n) v k e)
  | .structE n v fs => Expr.getTypes fs >>= fun ts => .ok (.struct (getNullability n) v ts)
  | .listE n v vs =>
      match vs with
      | [] => .panic
      | e :: _ => e.getType >>= fun t => .ok (.list (getNullability n) v t)
  | .scalar a _ => .ok a.outputType
  | .window a _ _ _ _ => .ok a.outputType
  | .lambda _ _ ps body => body.getType >>= fun r => .ok (.func NullabilityRequired ps r)
  | .scalarSubquery r =>
      match r.types with
      | [t] => .ok t
      | _ => .panic
  | .inPredicate _ _ => .ok (.prim .boolean NullabilityRequired 0)
  | .setPredicate _ _ => .ok (.prim .boolean NullabilityRequired 0)
  | .setComparison _ _ _ _ => .ok (.prim .boolean NullabilityRequired 0)
/-- the loop of `SwitchExpr.GetType`, `expr/expression.go:856-865`: the first nullable result type,
else the last -/
def ECase.branchType : List ECase → Option Ty → Res (Option Ty)
  | [], t => .ok t
  | .mk _ e :: cs, _ =>
      e.getType >>= fun t =>
      if t.nullability == NullabilityNullable then .ok (some t) else ECase.branchType cs (some t)
/-- the loop of `StructExpr.GetType`, `expr/expression.go:1426-1429` -/
def Expr.getTypes : List Expr → Res (List Ty)
  | [] => .ok []
  | e :: es => e.getType >>= fun t => Expr.getTypes es >>= fun ts => .ok (t :: ts)
end

/-! ## Constructors -/

/-- the check loop of `NewIfThen`, `expr/expression.go:478-488` -/
def checkElsifs (out : Ty) : List EPair → Res Unit
  | [] => .ok ()
  | .mk a b :: ps =>
      if a.isNil then .err
      else if b.isNil then .err
      else b.getType >>= fun t => out.equals t >>= fun r =>
        if r then checkElsifs out ps else .err

/-- `NewIfThen`, `expr/expression.go:462-493` -/
def newIfThen (first : EPair) (els : Expr) (elsifs : List EPair) : Res Expr :=
  if els.isNil then .err
  else
    els.getType >>= fun out =>
    match first with
    | .mk a b =>
        if a.isNil then .err
        else if b.isNil then .err
        else b.getType >>= fun t => out.equals t >>= fun r =>
          if r then checkElsifs out elsifs >>= fun _ => .ok (.ifThen (first :: elsifs) els)
          else .err

/-- What happens to a type object when `WithNullability(n)` is called on it: an interval_day type is
changed in place (`types/interval_day_type.go:21-24`), every other type is copied. -/
def Ty.touch (t : Ty) (n : Nullability) : Ty :=
  match t with
  | .prec .intervalDay _ v p => .prec .intervalDay n v p
  | t => t

/-- The literal after `l.GetType().WithNullability(n)` (its stored type may be changed in place;
`expr/expression.go:772`). -/
def Lit.touch (l : Lit) (n : Nullability) : Lit :=
  match l with
  | .null t => .null (t.touch n)
  | .prim v t => .prim v (t.touch n)
  | .bytes k b t => .bytes k b (t.touch n)
  | .proto v t => .proto v (t.touch n)
  | l => l

/-- The expression after `e.GetType().WithNullability(n)` (`expr/expression.go:752,764,766,775`).
Simplification: an inner switch and the relation of a scalar subquery are left as they are. -/
def Expr.touch : Expr → Nullability → Expr
  | .lit l, n => .lit (l.touch n)
  | .fieldRef r f (some t), n => .fieldRef r f (some (t.touch n))
  | .ifThen ifs els, n => .ifThen ifs (els.touch n)
  | .cast t e f, n => .cast (t.touch n) e f
  | .dynParam t r, n => .dynParam (t.touch n) r
  | .scalar a args, n => .scalar { a with outputType := a.outputType.touch n } args
  | .window a w args s p, n => .window { a with outputType := a.outputType.touch n } w args s p
  | e, _ => e

/-- the check loop of `NewSwitch`, `expr/expression.go:769-781`, returning the cases as the calls of
`WithNullability` leave them -/
def checkCases (matchType : Ty) (out : Option Ty) : List ECase → Res (List ECase)
  | [] => .ok []
  | .mk l e :: cs =>
      match l with
      | .nil => .err
      | l =>
        if e.isNil then .err
        else
          l.getType >>= fun lt =>
          matchType.equals (lt.withNullability NullabilityUnspecified) >>= fun b =>
          if b then
            match out with
            | none => .panic
            | some out =>
              e.getType >>= fun t =>
              out.equals (t.withNullability NullabilityUnspecified) >>= fun b =>
              if b then
                checkCases matchType (some out) cs >>= fun cs =>
                .ok (.mk (l.touch NullabilityUnspecified) (e.touch NullabilityUnspecified) :: cs)
              else .err
          else .err

/-- `NewSwitch`, `expr/expression.go:744-789` -/
def newSwitch (mtch els : Expr) (cases : List ECase) : Res Expr :=
  if mtch.isNil then .err
  else
    mtch.getType >>= fun mt =>
    match cases with
    | [] => .err
    | .mk _ e0 :: _ =>
        (if !els.isNil then
            els.getType >>= fun t => .ok (some (t.withNullability NullabilityUnspecified))
          else if !e0.isNil then
            e0.getType >>= fun t => .ok (some (t.withNullability NullabilityUnspecified))
          else .ok none) >>= fun out =>
        checkCases (mt.withNullability NullabilityUnspecified) out cases >>= fun cases =>
        .ok (.switch (mtch.touch NullabilityUnspecified) cases (els.touch NullabilityUnspecified))

end Verif
