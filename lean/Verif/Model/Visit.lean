import Verif.Model.FieldRef
/-!
# The `Visit` methods of expressions

Models `expr/expression.go`, `expr/functions.go`, `expr/lambda.go`, `expr/field_reference.go` and
`plan/subquery.go`, `Visit` methods only. Because the methods compare and return pointers and write
into slices, memory is explicit: a heap of cells, each an expression node or the backing array of a
slice. An `Expression` interface value is nil or the address of a node.

Simplifications: the node a method returns is allocated when the method returns instead of when its
slice is made (nothing reads it in between); literals held by value (`IntervalYearToMonthLiteral`,
`IntervalCompoundLiteral`) are addressed like the others. The visitor is any program on the heap with a
state of its own; `Visitor` are those that leave the heap alone.
-/

namespace Verif

/-- The address of a heap cell (model vocabulary: a Go pointer). -/
abbrev Addr := Nat

/-- An `Expression` interface value: nil or a pointer (`expr/expression.go:396-437`). -/
abbrev Ptr := Option Addr

/-- A `types.FuncArg` interface value as `expr/functions.go:441-446` distinguishes them: an
expression, or anything else (a type, an enum, nil), identified by a tag. -/
inductive Arg where
  | expr (a : Addr)
  | other (tag : String)
  deriving DecidableEq, Repr

/-- `types.SortKind` (`types/types.go:450-453,183-202`): the nil interface, a `SortDirection`, or a
`FunctionRef`. -/
inductive SortKind where
  | nil
  | direction (d : Int32)
  | func (ref : UInt32)
  deriving DecidableEq, Repr

/-- A non-nil window `Bound` (`expr/functions.go:55-64`). -/
inductive Bound where
  | preceding (offset : Int64)
  | following (offset : Int64)
  | currentRow
  | unbounded
  deriving DecidableEq, Repr

/-- One element of a slice of children: an `Expression`; an if/then, literal/then or key/value pair
(`expr/expression.go:439-442,728-731,1252`); a function argument; a sort field
(`expr/functions.go:50-53`); an inner slice of `MultiOrList.Options` (`none` is the nil slice). -/
inductive Slot where
  | ptr (p : Ptr)
  | pair (a b : Ptr)
  | arg (a : Arg)
  | sort (p : Ptr) (kind : SortKind)
  | row (r : Option Addr)
  deriving DecidableEq, Repr

/-- The fields of `ScalarFunction` other than the arguments (`expr/functions.go:173-180`; the
declaration is represented by its name). -/
structure FnAttrs where
  funcRef : UInt32
  declaration : String
  options : List (String × List String)
  outputType : Ty

/-- The further attributes of `WindowFunction` (`expr/functions.go:477-483`); `none` is the nil
bound. -/
structure WinAttrs where
  phase : Int32
  invocation : Int32
  boundsType : Int32
  lower : Option Bound
  upper : Option Bound

/-- The root of a field reference (`expr/field_reference.go:20-40`). -/
inductive VRoot where
  | rootReference
  | outer (steps : UInt32)
  | lambdaParam (steps : UInt32)
  | expr (a : Addr)

/-- A relation inside a subquery: its address and the column types of its `RecordType()`
(`plan/subquery.go:79-83,97-104`). -/
structure RelRef where
  addr : Nat
  types : List Ty

/-- The reference part of a field reference (`expr/field_reference.go:549-551`): nil, a segment, or
a mask expression identified by its address. -/
inductive ERef where
  | nil
  | seg (s : Seg)
  | mask (addr : Nat)

/-- An expression node; slices are addresses of their arrays. -/
inductive Node where
  /-- the literal types, `expr/literals.go` -/
  | literal (l : Lit)
  /-- `FieldReference`, `expr/field_reference.go:549-554` -/
  | fieldRef (root : VRoot) (ref : ERef) (knownType : Option Ty)
  /-- `IfThen`, `expr/expression.go:444-447` -/
  | ifThen (ifs : Addr) (els : Ptr)
  /-- `Cast`, `expr/expression.go:619-623` -/
  | cast (ty : Ty) (input : Ptr) (fail : Int32)
  /-- `DynamicParameter`, `expr/expression.go:678-681` -/
  | dynParam (ty : Ty) (ref : UInt32)
  /-- `SwitchExpr`, `expr/expression.go:726-733` -/
  | switch (mtch : Ptr) (ifs : Addr) (els : Ptr)
  /-- `SingularOrList`, `expr/expression.go:984-987` -/
  | singularOr (value : Ptr) (options : Addr)
  /-- `MultiOrList`, `expr/expression.go:1087-1090` -/
  | multiOr (value : Addr) (options : Addr)
  /-- `MapExpr`, `expr/expression.go:1249-1253` -/
  | mapE (nullable : Bool) (variation : UInt32) (kvs : Addr)
  /-- `StructExpr`, `expr/expression.go:1381-1385` -/
  | structE (nullable : Bool) (variation : UInt32) (fields : Addr)
  /-- `ListExpr`, `expr/expression.go:1493-1497` -/
  | listE (nullable : Bool) (variation : UInt32) (values : Addr)
  /-- `ScalarFunction`, `expr/functions.go:173-180` -/
  | scalar (a : FnAttrs) (args : Addr)
  /-- `WindowFunction`, `expr/functions.go:469-484` -/
  | window (a : FnAttrs) (w : WinAttrs) (args sorts partitions : Addr)
  /-- `Lambda`, `expr/lambda.go:12-15` -/
  | lambda (params : Ty) (body : Ptr)
  /-- `ScalarSubquery`, `plan/subquery.go:79-83` -/
  | scalarSubquery (input : RelRef)
  /-- `InPredicateSubquery`, `plan/subquery.go:140-146` -/
  | inPredicate (needles : Addr) (haystack : RelRef)
  /-- `SetPredicateSubquery`, `plan/subquery.go:268-274` -/
  | setPredicate (op : Int32) (tuples : RelRef)
  /-- `SetComparisonSubquery`, `plan/subquery.go:362-370`; `none` is the nil relation -/
  | setComparison (reduction comparison : Int32) (left : Ptr) (right : Option RelRef)

/-- A heap cell (model vocabulary). -/
inductive Cell where
  | node (n : Node)
  | arr (l : List Slot)

/-- Memory: allocation appends, so an address stays valid (model vocabulary). -/
abbrev Heap := List Cell

/-- A computation on the heap and the visitor's state `σ` (model vocabulary). -/
def VM (σ : Type) (β : Type) : Type := Heap → σ → Res (β × Heap × σ)

instance : Monad (VM σ) where
  pure a := fun h s => .ok (a, h, s)
  bind x f := fun h s => x h s >>= fun r => f r.1 r.2.1 r.2.2

/-- A `VisitFunc` (`expr/expression.go:379`): a program with its own state, which may read the heap,
allocate, write and panic. -/
abbrev HVisitor (σ : Type) := Ptr → VM σ Ptr

/-- A `VisitFunc` (`expr/expression.go:379`) that does nothing on the heap. -/
abbrev Visitor (σ : Type) := Ptr → σ → Res (Ptr × σ)

/-- ... as a program (model vocabulary). -/
def Visitor.run (f : Visitor σ) : HVisitor σ := fun p h s => f p s >>= fun r => .ok (r.1, h, r.2)

/-- Calling the visitor (`visit(x)` in every `Visit` method, e.g. `expr/expression.go:593`). -/
def callVisit (f : HVisitor σ) (p : Ptr) : VM σ Ptr := f p

/-- Go run-time panic (model vocabulary). -/
def vpanic : VM σ β := fun _ _ => .panic

/-- Reading the node behind the receiver (model vocabulary). -/
def readNode (e : Addr) : VM σ Node := fun h s =>
  match h[e]? with
  | some (.node n) => .ok (n, h, s)
  | _ => .panic

/-- Reading a slice (`range ex.ifs` etc., e.g. `expr/expression.go:592`). -/
def readArr (a : Addr) : VM σ (List Slot) := fun h s =>
  match h[a]? with
  | some (.arr l) => .ok (l, h, s)
  | _ => .panic

/-- `make`/`slices.Clone` (e.g. `expr/expression.go:597,1071`): a fresh array. -/
def allocArr (l : List Slot) : VM σ Addr := fun h s => .ok (h.length, h ++ [.arr l], s)

/-- `&IfThen{...}` etc. (e.g. `expr/expression.go:597`): a fresh node. -/
def allocNode (n : Node) : VM σ Ptr := fun h s => .ok (some h.length, h ++ [.node n], s)

/-- `out.ifs[i] = x` (e.g. `expr/expression.go:601-602`); panics out of range. -/
def writeSlot (a : Addr) (i : Nat) (x : Slot) : VM σ Unit := fun h s =>
  match h[a]? with
  | some (.arr l) => if i < l.length then .ok ((), h.set a (.arr (l.set i x)), s) else .panic
  | _ => .panic

/-- Visiting an element that is an expression (`expr/expression.go:1069,1471,1591`,
`plan/subquery.go:236`). -/
def ptrElem (f : HVisitor σ) : Slot → VM σ Slot
  | .ptr p => callVisit f p >>= fun a => pure (.ptr a)
  | _ => vpanic

/-- Visiting both halves of a pair (`expr/expression.go:593-594,945-946,1353-1354`). -/
def pairElem (f : HVisitor σ) : Slot → VM σ Slot
  | .pair p q => callVisit f p >>= fun a => callVisit f q >>= fun b => pure (.pair a b)
  | _ => vpanic

/-- Visiting a function argument (`expr/functions.go:440-446,741-747`); a visitor result nil becomes
a nil argument. -/
def argElem (f : HVisitor σ) : Slot → VM σ Slot
  | .arg (.expr a) => callVisit f (some a) >>= fun r =>
      pure (.arg (match r with | some b => .expr b | none => .other "nil"))
  | .arg (.other t) => pure (.arg (.other t))
  | _ => vpanic

/-- A test of what is in memory (model vocabulary). -/
def checkHeap (t : Heap → Bool) : VM σ Bool := fun h s => .ok (t h, h, s)

/-- The loop shared by the `Visit` methods: visit an element; if there is no output yet and the
element changed, make one (`alloc i`); if there is an output, store the visited element at index i.
`ok` is the type assertion made before storing (`expr/expression.go:961`), which looks at the heap;
`true` elsewhere.
`expr/expression.go:592-604,944-964,1068-1078,1191-1205,1352-1372,1470-1484,1590-1605`,
`expr/functions.go:439-458,740-759`, `plan/subquery.go:235-247`. -/
def cowLoop (elem : Slot → VM σ Slot) (alloc : Nat → VM σ Addr)
    (ok : Heap → Slot → Bool) :
    List Slot → Nat → Option Addr → VM σ (Option Addr)
  | [], _, out => pure out
  | x :: xs, i, out =>
      elem x >>= fun after =>
      (match out with
        | some a => pure (some a)
        | none => if after ≠ x then alloc i >>= fun a => pure (some a) else pure none) >>= fun out =>
      (match out with
        | some a => checkHeap (fun h => ok h after) >>= fun b => if b then writeSlot a i after else vpanic
        | none => pure ()) >>= fun _ =>
      cowLoop elem alloc ok xs (i + 1) out

/-- `make([]T, n)` followed by `copy(out, ex[:i])` (e.g. `expr/expression.go:1071-1072`). -/
def makeCopy (zero : Slot) (l : List Slot) (i : Nat) : VM σ Addr :=
  allocArr (l.take i ++ List.replicate (l.length - i) zero)

/-- `IfThen.Visit`, `expr/expression.go:589-617` -/
def visitIfThen (f : HVisitor σ) (e ifs : Addr) (els : Ptr) : VM σ Ptr :=
  readArr ifs >>= fun l =>
  cowLoop (pairElem f) (fun _ => allocArr l) (fun _ _ => true) l 0 none >>= fun out =>
  callVisit f els >>= fun afterElse =>
  match out with
  | none =>
      if afterElse = els then pure (some e)
      else allocArr l >>= fun a => allocNode (.ifThen a afterElse)
  | some a => allocNode (.ifThen a afterElse)

/-- `Cast.Visit`, `expr/expression.go:668-676` -/
def visitCast (f : HVisitor σ) (e : Addr) (ty : Ty) (input : Ptr) (fail : Int32) : VM σ Ptr :=
  callVisit f input >>= fun newInput =>
  if newInput = input then pure (some e) else allocNode (.cast ty newInput fail)

/-- `afterIf.(Literal)`, `expr/expression.go:961`: which pointers are literals is a parameter, since
a `Visitor` may return pointers to anything. -/
def litCheck (isLit : Heap → Ptr → Bool) (h : Heap) : Slot → Bool
  | .pair a _ => isLit h a
  | _ => true

/-- The pointer leads to a literal (`expr/expression.go:961`). -/
def litAt (h : Heap) : Ptr → Bool
  | none => false
  | some a => match h[a]? with
    | some (.node (.literal _)) => true
    | _ => false

/-- `SwitchExpr.Visit`, `expr/expression.go:931-980` -/
def visitSwitch (isLit : Heap → Ptr → Bool) (f : HVisitor σ) (e : Addr) (mtch : Ptr) (ifs : Addr)
    (els : Ptr) : VM σ Ptr :=
  readArr ifs >>= fun l =>
  callVisit f mtch >>= fun after =>
  (if after ≠ mtch then
      allocArr (List.replicate l.length (.pair none none)) >>= fun a => pure (some a)
    else pure none) >>= fun out =>
  cowLoop (pairElem f) (makeCopy (.pair none none) l) (litCheck isLit) l 0 out >>= fun out' =>
  callVisit f els >>= fun afterElse =>
  let mtch' := if out.isSome then after else mtch
  match out' with
  | none =>
      if afterElse = els then pure (some e)
      else allocArr l >>= fun a => allocNode (.switch mtch' a afterElse)
  | some a => allocNode (.switch mtch' a afterElse)

/-- `SingularOrList.Visit`, `expr/expression.go:1059-1085` -/
def visitSingularOr (f : HVisitor σ) (e : Addr) (value : Ptr) (options : Addr) : VM σ Ptr :=
  readArr options >>= fun l =>
  callVisit f value >>= fun temp =>
  (if temp ≠ value then
      allocArr (List.replicate l.length (.ptr none)) >>= fun a => pure (some a)
    else pure none) >>= fun out =>
  cowLoop (ptrElem f) (makeCopy (.ptr none) l) (fun _ _ => true) l 0 out >>= fun out' =>
  let value' := if out.isSome then temp else value
  match out' with
  | none => pure (some e)
  | some a => allocNode (.singularOr value' a)

/-- The slice behind `out.Options[i]`, or `none` for the nil slice
(`expr/expression.go:1208,1225,1230`). -/
def readRow (opts : Addr) (i : Nat) : VM σ (Option Addr) :=
  readArr opts >>= fun l =>
  match l[i]? with
  | some (.row r) => pure r
  | _ => vpanic

/-- `out.Options[i][j] = x` (`expr/expression.go:1225,1230`): indexing a nil slice panics. -/
def writeRow (opts : Addr) (i j : Nat) (x : Slot) : VM σ Unit :=
  readRow opts i >>= fun r =>
  match r with
  | some a => writeSlot a j x
  | none => vpanic

/-- The contents of a slice of expressions that may be nil (model vocabulary). -/
def rowContents : Option Addr → VM σ (List Slot)
  | none => pure []
  | some a => readArr a

/-- `for k := 0; k < i; k++ { out.Options[k] = slices.Clone(ex.Options[k]) }`,
`expr/expression.go:1220-1222` -/
def cloneRows (opts : Addr) : List (List Slot) → Nat → VM σ Unit
  | [], _ => pure ()
  | r :: rs, k => allocArr r >>= fun a => writeSlot opts k (.row (some a)) >>= fun _ =>
      cloneRows opts rs (k + 1)

/-- `for k := 0; k < j; k++ { out.Options[i][k] = ex.Options[i][k] }`,
`expr/expression.go:1224-1226` -/
def copyCells (opts : Addr) (i : Nat) : List Slot → Nat → VM σ Unit
  | [], _ => pure ()
  | x :: xs, k => writeRow opts i k x >>= fun _ => copyCells opts i xs (k + 1)

/-- The inner loop over one option row, `expr/expression.go:1212-1232`. `value` and `rows` are the
receiver's contents, `out` the arrays `out.Value` and `out.Options`. -/
def multiInner (f : HVisitor σ) (value : List Slot) (rows : List (List Slot)) (i : Nat) :
    List Slot → Nat → Option (Addr × Addr) → VM σ (Option (Addr × Addr))
  | [], _, out => pure out
  | o :: os, j, out =>
      ptrElem f o >>= fun after =>
      (match out with
        | some a => pure (some a)
        | none =>
            if after ≠ o then
              allocArr value >>= fun v =>
              allocArr (List.replicate rows.length (.row none)) >>= fun opts =>
              cloneRows opts (rows.take i) 0 >>= fun _ =>
              copyCells opts i ((rows[i]?.getD []).take j) 0 >>= fun _ =>
              pure (some (v, opts))
            else pure none) >>= fun out =>
      (match out with
        | some (_, opts) => writeRow opts i j after
        | none => pure ()) >>= fun _ =>
      multiInner f value rows i os (j + 1) out

/-- `if out != nil && len(out.Options[i]) == 0 { out.Options[i] = make(...) }`,
`expr/expression.go:1208-1210` -/
def multiMakeRow (len i : Nat) : Option (Addr × Addr) → VM σ Unit
  | none => pure ()
  | some (_, opts) =>
      readRow opts i >>= fun r => rowContents r >>= fun l =>
      if l.length = 0 then
        allocArr (List.replicate len (.ptr none)) >>= fun a => writeSlot opts i (.row (some a))
      else pure ()

/-- The outer loop over the option rows, `expr/expression.go:1207-1233` -/
def multiOuter (f : HVisitor σ) (value : List Slot) (rows : List (List Slot)) :
    List (List Slot) → Nat → Option (Addr × Addr) → VM σ (Option (Addr × Addr))
  | [], _, out => pure out
  | r :: rs, i, out =>
      multiMakeRow r.length i out >>= fun _ =>
      multiInner f value rows i r 0 out >>= fun out =>
      multiOuter f value rows rs (i + 1) out

/-- Reading `ex.Options` (model vocabulary). -/
def readRows : List Slot → VM σ (List (List Slot))
  | [] => pure []
  | .row r :: rs => rowContents r >>= fun l => readRows rs >>= fun ls => pure (l :: ls)
  | _ => vpanic

/-- `MultiOrList.Visit`, `expr/expression.go:1189-1240`. The array `out.Options` made together with
`out.Value` in the first loop (1195-1198) is allocated after that loop (nothing reads it before). -/
def visitMultiOr (f : HVisitor σ) (e value options : Addr) : VM σ Ptr :=
  readArr value >>= fun l =>
  readArr options >>= fun os =>
  readRows os >>= fun rows =>
  cowLoop (ptrElem f) (makeCopy (.ptr none) l) (fun _ _ => true) l 0 none >>= fun out =>
  (match out with
    | some v => allocArr (List.replicate rows.length (.row none)) >>= fun o => pure (some (v, o))
    | none => pure none) >>= fun out =>
  multiOuter f l rows rows 0 out >>= fun out =>
  match out with
  | none => pure (some e)
  | some (v, o) => allocNode (.multiOr v o)

/-- `MapExpr.Visit`, `expr/expression.go:1350-1379` -/
def visitMap (f : HVisitor σ) (e : Addr) (nullable : Bool) (variation : UInt32) (kvs : Addr) :
    VM σ Ptr :=
  readArr kvs >>= fun l =>
  cowLoop (pairElem f) (makeCopy (.pair none none) l) (fun _ _ => true) l 0 none >>= fun out =>
  match out with
  | none => pure (some e)
  | some a => allocNode (.mapE nullable variation a)

/-- `StructExpr.Visit`, `expr/expression.go:1468-1491` -/
def visitStruct (f : HVisitor σ) (e : Addr) (nullable : Bool) (variation : UInt32) (fields : Addr) :
    VM σ Ptr :=
  readArr fields >>= fun l =>
  cowLoop (ptrElem f) (makeCopy (.ptr none) l) (fun _ _ => true) l 0 none >>= fun out =>
  match out with
  | none => pure (some e)
  | some a => allocNode (.structE nullable variation a)

/-- `ListExpr.Visit`, `expr/expression.go:1588-1612` -/
def visitList (f : HVisitor σ) (e : Addr) (nullable : Bool) (variation : UInt32) (values : Addr) :
    VM σ Ptr :=
  readArr values >>= fun l =>
  cowLoop (ptrElem f) (makeCopy (.ptr none) l) (fun _ _ => true) l 0 none >>= fun out =>
  match out with
  | none => pure (some e)
  | some a => allocNode (.listE nullable variation a)

/-- `ScalarFunction.Visit`, `expr/functions.go:437-467` -/
def visitScalar (f : HVisitor σ) (e : Addr) (at_ : FnAttrs) (args : Addr) : VM σ Ptr :=
  readArr args >>= fun l =>
  cowLoop (argElem f) (makeCopy (.arg (.other "nil")) l) (fun _ _ => true) l 0 none >>= fun out =>
  match out with
  | none => pure (some e)
  | some a => allocNode (.scalar at_ a)

/-- `WindowFunction.Visit`, `expr/functions.go:738-768`: only the arguments are visited. -/
def visitWindow (f : HVisitor σ) (e : Addr) (at_ : FnAttrs) (w : WinAttrs)
    (args sorts partitions : Addr) : VM σ Ptr :=
  readArr args >>= fun l =>
  cowLoop (argElem f) (makeCopy (.arg (.other "nil")) l) (fun _ _ => true) l 0 none >>= fun out =>
  match out with
  | none => pure (some e)
  | some a => allocNode (.window at_ w a sorts partitions)

/-- `Lambda.Visit`, `expr/lambda.go:80-86` -/
def visitLambda (f : HVisitor σ) (e : Addr) (params : Ty) (body : Ptr) : VM σ Ptr :=
  callVisit f body >>= fun newBody =>
  if newBody = body then pure (some e) else allocNode (.lambda params newBody)

/-- `InPredicateSubquery.Visit`, `plan/subquery.go:233-253` -/
def visitInPredicate (f : HVisitor σ) (e needles : Addr) (haystack : RelRef) : VM σ Ptr :=
  readArr needles >>= fun l =>
  cowLoop (ptrElem f) (makeCopy (.ptr none) l) (fun _ _ => true) l 0 none >>= fun out =>
  match out with
  | none => pure (some e)
  | some a => allocNode (.inPredicate a haystack)

/-- `SetComparisonSubquery.Visit`, `plan/subquery.go:468-480` -/
def visitSetComparison (f : HVisitor σ) (e : Addr) (red cmp : Int32) (left : Ptr) (right : Option RelRef) :
    VM σ Ptr :=
  callVisit f left >>= fun afterLeft =>
  if afterLeft = left then pure (some e) else allocNode (.setComparison red cmp afterLeft right)

/-- `Expression.Visit`: dispatch on the node. Leaves return themselves: literals
(`expr/literals.go:147,238,333,413,483,697`, `expr/interval_compound_literal.go:112`,
`expr/interval_year_to_month.go:70`), field references (`expr/field_reference.go:756-758`, the root
expression is not visited), dynamic parameters (`expr/expression.go:722-724`), scalar and
set-predicate subqueries (`plan/subquery.go:134-137,332-335`). -/
def visit (isLit : Heap → Ptr → Bool) (f : HVisitor σ) (e : Addr) : VM σ Ptr :=
  readNode e >>= fun n =>
  match n with
  | .literal _ => pure (some e)
  | .fieldRef .. => pure (some e)
  | .ifThen ifs els => visitIfThen f e ifs els
  | .cast ty input fail => visitCast f e ty input fail
  | .dynParam _ _ => pure (some e)
  | .switch m ifs els => visitSwitch isLit f e m ifs els
  | .singularOr v o => visitSingularOr f e v o
  | .multiOr v o => visitMultiOr f e v o
  | .mapE n v a => visitMap f e n v a
  | .structE n v a => visitStruct f e n v a
  | .listE n v a => visitList f e n v a
  | .scalar a args => visitScalar f e a args
  | .window a w args s p => visitWindow f e a w args s p
  | .lambda ps b => visitLambda f e ps b
  | .scalarSubquery _ => pure (some e)
  | .inPredicate n h => visitInPredicate f e n h
  | .setPredicate _ _ => pure (some e)
  | .setComparison r c l rt => visitSetComparison f e r c l rt

end Verif
