import Verif.Spec.FieldRef
import Verif.Spec.Expr
/-!
# Specification vocabulary: the values an expression can have

What an engine makes of an expression, as far as types are concerned. Nothing here is code of the
library; the rules are those of the Substrait specification, with SQL's treatment of null in
comparisons. Evaluation is a relation: an expression may have several possible values (calls) or
none (an element outside its list).
-/

namespace Verif

/-- A value: null, a boolean, a value of some other simple type (told apart by a number), a struct,
a list, a map (keys and values side by side) or a function. -/
inductive Val where
  | null
  | bool (b : Bool)
  | simple (t : Ty) (code : Nat)
  | struct (fields : List Val)
  | list (elems : List Val)
  | map (keys vals : List Val)
  | closure

/-- Neither a struct, a list, a map, a function type nor boolean. -/
def Ty.Leaf : Ty → Prop
  | .struct .. | .list .. | .map .. | .func .. | .prim .boolean _ _ => False
  | _ => True

mutual
/-- The value belongs to the type. Null belongs to the nullable types and to no other. -/
def Val.InType : Val → Ty → Prop
  | .null, t => t.IsNullable
  | .bool _, .prim .boolean _ _ => True
  | .simple u _, t => u.Leaf ∧ u.SameKind t
  | .struct fs, .struct _ _ ts => Val.InTypes fs ts
  | .list vs, .list _ _ t => Val.AllIn vs t
  | .map ks vs, .map _ _ k e => ks.length = vs.length ∧ Val.AllIn ks k ∧ Val.AllIn vs e
  | .closure, .func .. => True
  | _, _ => False
/-- each value belongs to the type at the same place -/
def Val.InTypes : List Val → List Ty → Prop
  | [], [] => True
  | v :: vs, t :: ts => v.InType t ∧ Val.InTypes vs ts
  | _, _ => False
/-- every value belongs to the type -/
def Val.AllIn : List Val → Ty → Prop
  | [], _ => True
  | v :: vs, t => v.InType t ∧ Val.AllIn vs t
end

/-- What an expression is evaluated in: the current row, the rows of enclosing queries, the
parameters of enclosing lambdas, the rows of the relations of subqueries, which comparisons hold, and
which value each literal of a simple type has. -/
structure World where
  row : Val
  outer : UInt32 → Val
  lam : UInt32 → Val
  rows : RelRef → List (List Val)
  holds : Int32 → Val → Val → Prop
  code : Lit → Nat

/-- The types of the row, of the rows of enclosing queries and of the parameters of enclosing
lambdas. -/
structure Shape where
  row : Ty
  outer : UInt32 → Ty
  lam : UInt32 → Ty

/-- The world is as the types say: nothing but what schemas promise. -/
structure World.Fits (w : World) (s : Shape) : Prop where
  row : w.row.InType s.row
  outer : ∀ n, (w.outer n).InType (s.outer n)
  lam : ∀ n, (w.lam n).InType (s.lam n)
  rows : ∀ r, ∀ vs ∈ w.rows r, Val.InTypes vs r.types

mutual
/-- The value of a literal; a nil literal has none. -/
def Lit.denote (code : Lit → Nat) : Lit → Option Val
  | .nil => none
  | .null _ => some .null
  | .prim v t =>
      match v with
      | .bool b => some (.bool b)
      | v => some (.simple (t.withNullability NullabilityRequired) (code (.prim v t)))
  | .bytes k b t => some (.simple (t.withNullability NullabilityRequired) (code (.bytes k b t)))
  | .struct fs _ => (Lit.denoteList code fs).map .struct
  | .list vs _ => (Lit.denoteList code vs).map .list
  | .map kvs _ => (KeyValue.denoteList code kvs).map fun p => .map p.1 p.2
  | .proto v t => some (.simple (t.withNullability NullabilityRequired) (code (.proto v t)))
  | .intervalYearToMonth y m n =>
      some (.simple (.intervalYearToMonth NullabilityRequired 0) (code (.intervalYearToMonth y m n)))
  | .intervalCompound y m d s ss p n =>
      some (.simple (.intervalCompound false NullabilityRequired 0 p)
        (code (.intervalCompound y m d s ss p n)))
/-- ... of each literal -/
def Lit.denoteList (code : Lit → Nat) : List Lit → Option (List Val)
  | [] => some []
  | l :: ls => (Lit.denote code l).bind fun v => (Lit.denoteList code ls).map (v :: ·)
/-- ... of each entry: the keys, the values -/
def KeyValue.denoteList (code : Lit → Nat) : List KeyValue → Option (List Val × List Val)
  | [] => some ([], [])
  | .mk k x :: kvs =>
      (Lit.denote code k).bind fun kv => (Lit.denote code x).bind fun xv =>
        (KeyValue.denoteList code kvs).map fun p => (kv :: p.1, xv :: p.2)
end

/-- Following a path into a value. A path into null leads to null; a field, element or key that is
not there leads nowhere. -/
inductive Reach (code : Lit → Nat) : List Step → Val → Val → Prop
  | done (v) : Reach code [] v v
  | null (s ss) : Reach code (s :: ss) .null .null
  | field (f : Int32) (i : Nat) (fs x ss v) (hi : f.toInt = i) (hx : fs[i]? = some x)
      (h : Reach code ss x v) : Reach code (.field f :: ss) (.struct fs) v
  | element (o : Int32) (i : Nat) (xs x ss v) (hi : o.toInt = i) (hx : xs[i]? = some x)
      (h : Reach code ss x v) : Reach code (.element o :: ss) (.list xs) v
  | key (k : Lit) (kv : Val) (i : Nat) (ks xs x ss v) (hk : Lit.denote code k = some kv)
      (hi : ks[i]? = some kv) (hx : xs[i]? = some x)
      (h : Reach code ss x v) : Reach code (.key k :: ss) (.map ks xs) v

/-- Two rows are equal: as long, without null, the same values. -/
def RowEq (a b : List Val) : Prop := a = b ∧ Val.null ∉ a

/-- Two rows differ: of different length, or in a place where neither is null. -/
def RowNe (a b : List Val) : Prop :=
  a.length ≠ b.length ∨
    ∃ (i : Nat) (x y : Val), a[i]? = some x ∧ b[i]? = some y ∧ x ≠ .null ∧ y ≠ .null ∧ x ≠ y

/-- SQL's `IN`: true when some row is equal, false when all differ, null otherwise. -/
def Among (a : List Val) (rows : List (List Val)) (r : Val) : Prop :=
  ((∃ b ∈ rows, RowEq a b) ∧ r = .bool true) ∨
  ((∀ b ∈ rows, RowNe a b) ∧ r = .bool false) ∨
  ((¬ ∃ b ∈ rows, RowEq a b) ∧ (¬ ∀ b ∈ rows, RowNe a b) ∧ r = .null)

/-- A comparison of two values that comes out true; comparisons with null come out null. -/
def World.True (w : World) (op : Int32) (a b : Val) : Prop := a ≠ .null ∧ b ≠ .null ∧ w.holds op a b
/-- ... that comes out false -/
def World.False (w : World) (op : Int32) (a b : Val) : Prop :=
  a ≠ .null ∧ b ≠ .null ∧ ¬ w.holds op a b

/-- SQL's `ANY` (1) and `ALL` (2) over a column. -/
def World.Compared (w : World) (reduction op : Int32) (a : Val) (col : List Val) (r : Val) : Prop :=
  (reduction = 1 ∧
    (((∃ b ∈ col, w.True op a b) ∧ r = .bool true) ∨
     ((∀ b ∈ col, w.False op a b) ∧ r = .bool false) ∨
     ((¬ ∃ b ∈ col, w.True op a b) ∧ (¬ ∀ b ∈ col, w.False op a b) ∧ r = .null))) ∨
  (reduction = 2 ∧
    (((∃ b ∈ col, w.False op a b) ∧ r = .bool false) ∨
     ((∀ b ∈ col, w.True op a b) ∧ r = .bool true) ∨
     ((¬ ∃ b ∈ col, w.False op a b) ∧ (¬ ∀ b ∈ col, w.True op a b) ∧ r = .null)))

mutual
/-- The expression can have the value. -/
def Expr.Yields (w : World) : Expr → Val → Prop
  | .nil, _ => False
  | .lit l, v => Lit.denote w.code l = some v
  -- the value at the end of the path; masks are not looked into
  | .fieldRef root ref _, v =>
      match ref with
      | .seg s => ∃ x, root.Yields w x ∧ Reach w.code s.steps x v
      | _ => False
  -- the result of the first condition that is true, else the default
  | .ifThen ifs els, v => EPair.YieldsFirst w ifs v ∨ (EPair.NoneTrue w ifs ∧ els.Yields w v)
  -- null stays null; anything else becomes a value of the type, or null if that is asked for (1)
  | .cast ty e fail, v => ∃ x, e.Yields w x ∧
      ((x = .null ∧ v = .null) ∨
       (x ≠ .null ∧ ((v ≠ .null ∧ v.InType ty) ∨ (fail = 1 ∧ v = .null))))
  | .dynParam ty _, v => v.InType ty
  -- the result of the first case with an equal label, else the default, else null
  | .switch m cases els, v => ∃ x, m.Yields w x ∧
      (ECase.YieldsFirst w x cases v ∨
       (ECase.NoneEqual w x cases ∧ (els.Yields w v ∨ (els.isNil = true ∧ v = .null))))
  | .singularOr e os, v => ∃ x xs, e.Yields w x ∧ Expr.YieldsList w os xs ∧
      Among [x] (xs.map fun y => [y]) v
  | .multiOr es os, v => ∃ xs yss, Expr.YieldsList w es xs ∧ ERow.YieldsList w os yss ∧
      Among xs yss v
  | .mapE _ _ kvs, v => ∃ ks vs, EPair.YieldsAll w kvs ks vs ∧ v = .map ks vs
  | .structE _ _ fs, v => ∃ vs, Expr.YieldsList w fs vs ∧ v = .struct vs
  | .listE _ _ es, v => ∃ vs, Expr.YieldsList w es vs ∧ v = .list vs
  -- functions return what their declared output type says
  | .scalar a _, v => v.InType a.outputType
  | .window a _ _ _ _, v => v.InType a.outputType
  | .lambda .., v => v = .closure
  -- null when there is no row; more than one row is an error
  | .scalarSubquery r, v => (w.rows r = [] ∧ v = .null) ∨ w.rows r = [[v]]
  | .inPredicate es r, v => ∃ xs, Expr.YieldsList w es xs ∧ Among xs (w.rows r) v
  -- EXISTS (1) and UNIQUE (2)
  | .setPredicate op r, v => ∃ b : Bool, v = .bool b ∧
      ((op = 1 ∧ (b = true ↔ w.rows r ≠ [])) ∨ (op = 2 ∧ (b = true ↔ (w.rows r).Nodup)))
  | .setComparison red op l right, v =>
      match right with
      | none => False
      | some r => ∃ x col, l.Yields w x ∧ w.rows r = col.map (fun y => [y]) ∧
          w.Compared red op x col v
/-- what the root of a reference stands for -/
def ERoot.Yields (w : World) : ERoot → Val → Prop
  | .rootReference, v => v = w.row
  | .outer n, v => v = w.outer n
  | .lambdaParam n, v => v = w.lam n
  | .expr e, v => e.Yields w v
/-- the values of several expressions, in order -/
def Expr.YieldsList (w : World) : List Expr → List Val → Prop
  | [], vs => vs = []
  | e :: es, vs => ∃ x xs, vs = x :: xs ∧ e.Yields w x ∧ Expr.YieldsList w es xs
/-- ... of several rows -/
def ERow.YieldsList (w : World) : List ERow → List (List Val) → Prop
  | [], vss => vss = []
  | .mk es :: rs, vss => ∃ x xs, vss = x :: xs ∧ Expr.YieldsList w es x ∧ ERow.YieldsList w rs xs
/-- ... of several pairs -/
def EPair.YieldsAll (w : World) : List EPair → List Val → List Val → Prop
  | [], ks, vs => ks = [] ∧ vs = []
  | .mk a b :: ps, ks, vs => ∃ k ks' x vs', ks = k :: ks' ∧ vs = x :: vs' ∧ a.Yields w k ∧
      b.Yields w x ∧ EPair.YieldsAll w ps ks' vs'
/-- some condition is true, those before it are not, and its result has the value -/
def EPair.YieldsFirst (w : World) : List EPair → Val → Prop
  | [], _ => False
  | .mk c r :: ps, v => (c.Yields w (.bool true) ∧ r.Yields w v) ∨
      ((∃ x, c.Yields w x ∧ x ≠ .bool true) ∧ EPair.YieldsFirst w ps v)
/-- no condition is true -/
def EPair.NoneTrue (w : World) : List EPair → Prop
  | [] => True
  | .mk c _ :: ps => (∃ x, c.Yields w x ∧ x ≠ .bool true) ∧ EPair.NoneTrue w ps
/-- some label is equal to the value compared, those before it are not, and its result has the
value -/
def ECase.YieldsFirst (w : World) (x : Val) : List ECase → Val → Prop
  | [], _ => False
  | .mk l r :: cs, v => (RowEq [x] ((Lit.denote w.code l).toList) ∧ r.Yields w v) ∨
      (¬ RowEq [x] ((Lit.denote w.code l).toList) ∧ ECase.YieldsFirst w x cs v)
/-- no label is equal -/
def ECase.NoneEqual (w : World) (x : Val) : List ECase → Prop
  | [] => True
  | .mk l _ :: cs => ¬ RowEq [x] ((Lit.denote w.code l).toList) ∧ ECase.NoneEqual w x cs
end

/-! ## What constructors guarantee, and what they leave to the caller -/

mutual
/-- The types recorded in the literal fit together: struct types list the types of the fields, list
and map types have the type of the elements. -/
def Lit.Coherent : Lit → Prop
  | .nil => False
  | .null t => t.IsNullable
  | .prim v t =>
      match v with
      | .bool _ => ∃ n u, t = .prim .boolean n u
      | _ => t.Leaf
  | .bytes _ _ t => t.Leaf
  | .struct fs t => Lit.CoherentList fs ∧
      ∃ n v ts us, t = .struct n v ts ∧ fs.map Lit.getType = us.map Res.ok ∧
        Ty.eraseList ts = Ty.eraseList us
  | .list vs t => Lit.CoherentList vs ∧
      ∃ n v e, t = .list n v e ∧ ∀ x ∈ vs, ∃ u, x.getType = .ok u ∧ u.Same e
  | .map kvs t => KeyValue.CoherentList kvs ∧
      ∃ n v k e, t = .map n v k e ∧ ∀ x y, KeyValue.mk x y ∈ kvs →
        ∃ u u', x.getType = .ok u ∧ y.getType = .ok u' ∧ u.Same k ∧ u'.Same e
  | .proto _ t => t.Leaf
  | .intervalYearToMonth .. => True
  | .intervalCompound .. => True
/-- ... of each literal -/
def Lit.CoherentList : List Lit → Prop
  | [] => True
  | l :: ls => l.Coherent ∧ Lit.CoherentList ls
/-- ... of each entry -/
def KeyValue.CoherentList : List KeyValue → Prop
  | [] => True
  | .mk k v :: kvs => k.Coherent ∧ v.Coherent ∧ KeyValue.CoherentList kvs
end

/-- The expression's type is known and does not admit null. -/
def Expr.Required (e : Expr) : Prop := ∃ t, e.getType = .ok t ∧ ¬ t.IsNullable

/-- The path leads from the first type to the second through containers that are not nullable. -/
inductive FirmWalk : List Step → Ty → Ty → Prop
  | done (t) : FirmWalk [] t t
  | step (s ss t u w) (hn : ¬ t.IsNullable) (h1 : StepTo s t u) (h2 : FirmWalk ss u w) :
      FirmWalk (s :: ss) t w

/-- The type of what the root of a reference stands for. -/
def ERoot.HasType (s : Shape) : ERoot → Ty → Prop
  | .rootReference, t => t = s.row
  | .outer n, t => t = s.outer n
  | .lambdaParam n, t => t = s.lam n
  | .expr e, t => e.getType = .ok t

mutual
/-- What the constructors of expressions see to: references record the type at the end of their
path, the results of an if have one type, those of a switch one type apart from nullability, lists
and maps are not empty, a scalar subquery has one column, the body of a lambda has a type. -/
def Expr.Checked (s : Shape) : Expr → Prop
  | .nil => False
  | .lit l => l.Coherent
  | .fieldRef root ref known => root.Checked s ∧ ∃ p T t, ref = .seg p ∧ root.HasType s T ∧
      known = some t ∧ Walk p.steps T t
  | .ifThen ifs els => els.Checked s ∧ EPair.CheckedResults s ifs ∧
      ∃ t, els.getType = .ok t ∧ ∀ a b, EPair.mk a b ∈ ifs → ∃ u, b.getType = .ok u ∧ u.Same t
  | .cast _ e _ => e.Checked s
  | .dynParam .. => True
  | .switch _ cases els => cases ≠ [] ∧ ECase.CheckedResults s cases ∧
      (els.isNil = true ∨ els.Checked s) ∧
      ∃ k : Ty, (∀ c ∈ cases, ∃ u, c.result.getType = .ok u ∧ u.SameKind k) ∧
        (els.isNil = true ∨ ∃ u, els.getType = .ok u ∧ u.SameKind k)
  | .singularOr e os => e.Checked s ∧ Expr.CheckedList s os
  | .multiOr es os => Expr.CheckedList s es ∧ ERow.CheckedList s os
  | .mapE _ _ kvs => kvs ≠ [] ∧ EPair.CheckedAll s kvs
  | .structE _ _ fs => Expr.CheckedList s fs
  | .listE _ _ es => es ≠ [] ∧ Expr.CheckedList s es
  | .scalar .. => True
  | .window .. => True
  | .lambda _ _ _ body => ∃ t, body.getType = .ok t
  | .scalarSubquery r => ∃ t, r.types = [t]
  | .inPredicate es _ => Expr.CheckedList s es
  | .setPredicate .. => True
  | .setComparison _ _ l _ => l.Checked s
/-- ... of the root of a reference -/
def ERoot.Checked (s : Shape) : ERoot → Prop
  | .expr e => e.Checked s
  | _ => True
/-- ... of several expressions -/
def Expr.CheckedList (s : Shape) : List Expr → Prop
  | [] => True
  | e :: es => e.Checked s ∧ Expr.CheckedList s es
/-- ... of rows -/
def ERow.CheckedList (s : Shape) : List ERow → Prop
  | [] => True
  | .mk es :: rs => Expr.CheckedList s es ∧ ERow.CheckedList s rs
/-- ... of the results of conditions -/
def EPair.CheckedResults (s : Shape) : List EPair → Prop
  | [] => True
  | .mk _ b :: ps => b.Checked s ∧ EPair.CheckedResults s ps
/-- ... of keys and values -/
def EPair.CheckedAll (s : Shape) : List EPair → Prop
  | [] => True
  | .mk a b :: ps => a.Checked s ∧ b.Checked s ∧ EPair.CheckedAll s ps
/-- ... of the results of cases -/
def ECase.CheckedResults (s : Shape) : List ECase → Prop
  | [] => True
  | .mk _ e :: cs => e.Checked s ∧ ECase.CheckedResults s cs
end

mutual
/-- What is left to the caller: paths to a required type lead through required containers, casts to
a required type cannot come out null, what or-lists, IN predicates and comparisons compare is
required, the column of a scalar subquery is nullable, and all elements of lists and maps have one
type. -/
def Expr.Careful (s : Shape) : Expr → Prop
  | .fieldRef root ref known => root.Careful s ∧ ((∃ t, known = some t ∧ t.IsNullable) ∨
      ∃ p T t, ref = .seg p ∧ root.HasType s T ∧ FirmWalk p.steps T t)
  | .ifThen ifs els => els.Careful s ∧ EPair.CarefulResults s ifs
  | .cast ty e fail => ty.IsNullable ∨ (e.Careful s ∧ e.Required ∧ fail ≠ 1)
  | .switch _ cases els => ECase.CarefulResults s cases ∧ els.Careful s
  | .singularOr e os => (e.Careful s ∧ e.Required) ∧ Expr.CarefulList s os
  | .multiOr es os => Expr.CarefulList s es ∧ ERow.CarefulList s os
  | .mapE _ _ kvs => EPair.CarefulAll s kvs ∧
      ∃ k e : Ty, ∀ a b, EPair.mk a b ∈ kvs → ∃ u u', a.getType = .ok u ∧ b.getType = .ok u' ∧
        u.Same k ∧ u'.Same e
  | .structE _ _ fs => EPlain.CarefulList s fs
  | .listE _ _ es => EPlain.CarefulList s es ∧
      ∃ t : Ty, ∀ e ∈ es, ∃ u, e.getType = .ok u ∧ u.Same t
  | .scalarSubquery r => ∃ t ∈ r.types, t.IsNullable
  | .inPredicate es r => Expr.CarefulList s es ∧ ∀ t ∈ r.types, ¬ t.IsNullable
  | .setComparison _ _ l r => (l.Careful s ∧ l.Required) ∧ ∀ x ∈ r, ∀ t ∈ x.types, ¬ t.IsNullable
  | _ => True
/-- ... for the root of a reference -/
def ERoot.Careful (s : Shape) : ERoot → Prop
  | .expr e => e.Careful s
  | _ => True
/-- ... for expressions that are compared -/
def Expr.CarefulList (s : Shape) : List Expr → Prop
  | [] => True
  | e :: es => (e.Careful s ∧ e.Required) ∧ Expr.CarefulList s es
/-- ... for expressions that are not -/
def EPlain.CarefulList (s : Shape) : List Expr → Prop
  | [] => True
  | e :: es => e.Careful s ∧ EPlain.CarefulList s es
/-- ... for rows -/
def ERow.CarefulList (s : Shape) : List ERow → Prop
  | [] => True
  | .mk es :: rs => Expr.CarefulList s es ∧ ERow.CarefulList s rs
/-- ... for the results of conditions -/
def EPair.CarefulResults (s : Shape) : List EPair → Prop
  | [] => True
  | .mk _ b :: ps => b.Careful s ∧ EPair.CarefulResults s ps
/-- ... for keys and values -/
def EPair.CarefulAll (s : Shape) : List EPair → Prop
  | [] => True
  | .mk a b :: ps => a.Careful s ∧ b.Careful s ∧ EPair.CarefulAll s ps
/-- ... for the results of cases -/
def ECase.CarefulResults (s : Shape) : List ECase → Prop
  | [] => True
  | .mk _ e :: cs => e.Careful s ∧ ECase.CarefulResults s cs
end

end Verif
