import Verif.Model.Expr
import Verif.Spec.Visit
/-!
# Specification vocabulary: whole expressions in memory, and rewriting them

`Verif.Spec.Visit` looks at a node one level deep. Here: which tree stands in memory behind a pointer,
what one call of `Visit` makes of a tree, and what the usual recursive use of it makes, which is

    func rewrite(e Expression) Expression {
        if e == nil { return nil }
        return step(e.Visit(rewrite))
    }
-/

namespace Verif

/-- What is known of the memory: the contents of some cells. -/
abbrev Known := Addr → Option Cell

/-- It is so in this memory. -/
def Known.Of (m : Known) (h : Heap) : Prop := ∀ a c, m a = some c → h[a]? = some c

/-- Everything known before, and all cells allocated since, with their present contents. -/
def Known.after (m : Known) (h h' : Heap) : Known := fun a =>
  if (m a).isSome ∨ h.length ≤ a then h'[a]? else none

mutual
/-- The expression stands behind the pointer, in cells that are known. `tag` says what the arguments
that are not expressions are. -/
def InMem (tag : String → EArg) (m : Known) : Expr → Ptr → Prop
  | .nil, p => p = none
  | .lit l, p => ∃ a, p = some a ∧ m a = some (.node (.literal l))
  | .fieldRef root ref t, p => ∃ a r, p = some a ∧ m a = some (.node (.fieldRef r ref t)) ∧
      RootInMem tag m root r
  | .ifThen ifs els, p => ∃ a b l q, p = some a ∧ m a = some (.node (.ifThen b q)) ∧
      m b = some (.arr l) ∧ PairsInMem tag m ifs l ∧ InMem tag m els q
  | .cast ty e fail, p => ∃ a q, p = some a ∧ m a = some (.node (.cast ty q fail)) ∧ InMem tag m e q
  | .dynParam ty ref, p => ∃ a, p = some a ∧ m a = some (.node (.dynParam ty ref))
  | .switch e cases els, p => ∃ a b l q r, p = some a ∧ m a = some (.node (.switch q b r)) ∧
      m b = some (.arr l) ∧ InMem tag m e q ∧ CasesInMem tag m cases l ∧ InMem tag m els r
  | .singularOr e os, p => ∃ a b l q, p = some a ∧ m a = some (.node (.singularOr q b)) ∧
      m b = some (.arr l) ∧ InMem tag m e q ∧ ListInMem tag m os l
  | .multiOr es os, p => ∃ a b c l ls, p = some a ∧ m a = some (.node (.multiOr b c)) ∧
      m b = some (.arr l) ∧ m c = some (.arr ls) ∧ ListInMem tag m es l ∧ RowsInMem tag m os ls
  | .mapE n v kvs, p => ∃ a b l, p = some a ∧ m a = some (.node (.mapE n v b)) ∧
      m b = some (.arr l) ∧ PairsInMem tag m kvs l
  | .structE n v es, p => ∃ a b l, p = some a ∧ m a = some (.node (.structE n v b)) ∧
      m b = some (.arr l) ∧ ListInMem tag m es l
  | .listE n v es, p => ∃ a b l, p = some a ∧ m a = some (.node (.listE n v b)) ∧
      m b = some (.arr l) ∧ ListInMem tag m es l
  | .scalar f args, p => ∃ a b l, p = some a ∧ m a = some (.node (.scalar f b)) ∧
      m b = some (.arr l) ∧ ArgsInMem tag m args l
  | .window f w args sorts parts, p => ∃ a b c d l ls lp, p = some a ∧
      m a = some (.node (.window f w b c d)) ∧ m b = some (.arr l) ∧ m c = some (.arr ls) ∧
      m d = some (.arr lp) ∧ ArgsInMem tag m args l ∧ SortsInMem tag m sorts ls ∧
      ListInMem tag m parts lp
  | .lambda n v ts e, p => ∃ a q, p = some a ∧ m a = some (.node (.lambda (.struct n v ts) q)) ∧
      InMem tag m e q
  | .scalarSubquery r, p => ∃ a, p = some a ∧ m a = some (.node (.scalarSubquery r))
  | .inPredicate es r, p => ∃ a b l, p = some a ∧ m a = some (.node (.inPredicate b r)) ∧
      m b = some (.arr l) ∧ ListInMem tag m es l
  | .setPredicate op r, p => ∃ a, p = some a ∧ m a = some (.node (.setPredicate op r))
  | .setComparison red op e r, p => ∃ a q, p = some a ∧
      m a = some (.node (.setComparison red op q r)) ∧ InMem tag m e q
/-- the root of a reference -/
def RootInMem (tag : String → EArg) (m : Known) : ERoot → VRoot → Prop
  | .rootReference, r => r = .rootReference
  | .outer n, r => r = .outer n
  | .lambdaParam n, r => r = .lambdaParam n
  | .expr e, r => ∃ a, r = .expr a ∧ InMem tag m e (some a)
/-- the elements of a slice of expressions -/
def ListInMem (tag : String → EArg) (m : Known) : List Expr → List Slot → Prop
  | [], l => l = []
  | e :: es, l => ∃ p xs, l = .ptr p :: xs ∧ InMem tag m e p ∧ ListInMem tag m es xs
/-- ... of pairs -/
def PairsInMem (tag : String → EArg) (m : Known) : List EPair → List Slot → Prop
  | [], l => l = []
  | .mk a b :: ps, l => ∃ p q xs, l = .pair p q :: xs ∧ InMem tag m a p ∧ InMem tag m b q ∧
      PairsInMem tag m ps xs
/-- ... of cases; the labels are literals -/
def CasesInMem (tag : String → EArg) (m : Known) : List ECase → List Slot → Prop
  | [], l => l = []
  | .mk lit e :: cs, l => ∃ a q xs, l = .pair (some a) q :: xs ∧
      m a = some (.node (.literal lit)) ∧ InMem tag m e q ∧ CasesInMem tag m cs xs
/-- ... of slices of expressions; an empty one may be nil -/
def RowsInMem (tag : String → EArg) (m : Known) : List ERow → List Slot → Prop
  | [], l => l = []
  | .mk es :: rs, l => ∃ r xs, l = .row r :: xs ∧
      ((r = none ∧ es = []) ∨ ∃ a ys, r = some a ∧ m a = some (.arr ys) ∧ ListInMem tag m es ys) ∧
      RowsInMem tag m rs xs
/-- ... of arguments -/
def ArgsInMem (tag : String → EArg) (m : Known) : List EArg → List Slot → Prop
  | [], l => l = []
  | .expr e :: as, l => ∃ a xs, l = .arg (.expr a) :: xs ∧ InMem tag m e (some a) ∧
      ArgsInMem tag m as xs
  | x :: as, l => ∃ t xs, l = .arg (.other t) :: xs ∧ tag t = x ∧ ArgsInMem tag m as xs
/-- ... of sort fields -/
def SortsInMem (tag : String → EArg) (m : Known) : List ESort → List Slot → Prop
  | [], l => l = []
  | .mk e k :: ss, l => ∃ p xs, l = .sort p k :: xs ∧ InMem tag m e p ∧ SortsInMem tag m ss xs
end

/-! ## One call of `Visit` -/

/-- a pair, both replaced -/
def EPair.visited (F : Expr → Expr) : EPair → EPair
  | .mk a b => .mk (F a) (F b)
/-- a case; a label that is not a literal any more makes the code panic, here it stays -/
def ECase.visited (F : Expr → Expr) : ECase → ECase
  | .mk l e => .mk (match F (.lit l) with | .lit l' => l' | _ => l) (F e)
/-- a row of options -/
def ERow.visited (F : Expr → Expr) : ERow → ERow
  | .mk es => .mk (es.map F)
/-- an argument; one replaced by nil is nil -/
def EArg.visited (F : Expr → Expr) : EArg → EArg
  | .expr e => if (F e).isNil then .nil else .expr (F e)
  | x => x

/-- The expression with each child `c` replaced by `F c`. The sort fields and partitions of window
functions and the root of a field reference stay (C17). -/
def Expr.visited (F : Expr → Expr) : Expr → Expr
  | .ifThen ifs els => .ifThen (ifs.map (EPair.visited F)) (F els)
  | .cast ty e fail => .cast ty (F e) fail
  | .switch e cases els => .switch (F e) (cases.map (ECase.visited F)) (F els)
  | .singularOr e os => .singularOr (F e) (os.map F)
  | .multiOr es os => .multiOr (es.map F) (os.map (ERow.visited F))
  | .mapE n v kvs => .mapE n v (kvs.map (EPair.visited F))
  | .structE n v es => .structE n v (es.map F)
  | .listE n v es => .listE n v (es.map F)
  | .scalar f args => .scalar f (args.map (EArg.visited F))
  | .window f w args sorts parts => .window f w (args.map (EArg.visited F)) sorts parts
  | .lambda n v ts e => .lambda n v ts (F e)
  | .inPredicate es r => .inPredicate (es.map F) r
  | .setComparison red op e r => .setComparison red op (F e) r
  | e => e

/-- The children that are handed to the visitor, a missing default (nil) included. -/
def Expr.kids : Expr → List Expr
  | .ifThen ifs els => ifs.flatMap (fun | .mk a b => [a, b]) ++ [els]
  | .cast _ e _ => [e]
  | .switch e cases els => e :: cases.flatMap (fun | .mk l r => [.lit l, r]) ++ [els]
  | .singularOr e os => e :: os
  | .multiOr es os => es ++ os.flatMap (fun | .mk rs => rs)
  | .mapE _ _ kvs => kvs.flatMap (fun | .mk a b => [a, b])
  | .structE _ _ es => es
  | .listE _ _ es => es
  | .scalar _ args => args.flatMap (fun | .expr e => [e] | _ => [])
  | .window _ _ args _ _ => args.flatMap (fun | .expr e => [e] | _ => [])
  | .lambda _ _ _ e => [e]
  | .inPredicate es _ => es
  | .setComparison _ _ e _ => [e]
  | _ => []

/-- `Visit` may panic: a case label becomes something other than a literal; or a multi-or-list has
options, and its values all stay (C17). -/
def Expr.Breaks (F : Expr → Expr) : Expr → Prop
  | .switch _ cases _ => ∃ l e, ECase.mk l e ∈ cases ∧ ∀ l', F (.lit l) ≠ .lit l'
  | .multiOr es os => (∀ e ∈ es, F e = e) ∧ ∃ r ∈ os, r ≠ .mk []
  | _ => False

/-! ## The recursive use -/

/-- The function shown at the top. `n` bounds the depth of recursion; beyond it the program is
counted as failed. -/
def rewriteWith (step : HVisitor σ) : Nat → HVisitor σ
  | 0, _ => vpanic
  | _ + 1, none => pure none
  | n + 1, some a => visit litAt (rewriteWith step n) a >>= step

mutual
/-- The expression with `F` applied to every node from the leaves to the root. Case labels that `F`
makes something other than a literal stay; so do the sort fields and partitions of window functions and
the roots of field references. -/
def Expr.bottomUp (F : Expr → Expr) : Expr → Expr
  | .nil => .nil
  | .lit l => F (.lit l)
  | .fieldRef root ref t => F (.fieldRef root ref t)
  | .ifThen ifs els => F (.ifThen (EPair.bottomUp F ifs) (els.bottomUp F))
  | .cast ty e fail => F (.cast ty (e.bottomUp F) fail)
  | .dynParam ty ref => F (.dynParam ty ref)
  | .switch e cases els => F (.switch (e.bottomUp F) (ECase.bottomUp F cases) (els.bottomUp F))
  | .singularOr e os => F (.singularOr (e.bottomUp F) (Expr.bottomUpList F os))
  | .multiOr es os => F (.multiOr (Expr.bottomUpList F es) (ERow.bottomUp F os))
  | .mapE n v kvs => F (.mapE n v (EPair.bottomUp F kvs))
  | .structE n v es => F (.structE n v (Expr.bottomUpList F es))
  | .listE n v es => F (.listE n v (Expr.bottomUpList F es))
  | .scalar f args => F (.scalar f (EArg.bottomUp F args))
  | .window f w args sorts parts => F (.window f w (EArg.bottomUp F args) sorts parts)
  | .lambda n v ts e => F (.lambda n v ts (e.bottomUp F))
  | .scalarSubquery r => F (.scalarSubquery r)
  | .inPredicate es r => F (.inPredicate (Expr.bottomUpList F es) r)
  | .setPredicate op r => F (.setPredicate op r)
  | .setComparison red op e r => F (.setComparison red op (e.bottomUp F) r)
/-- ... to each expression -/
def Expr.bottomUpList (F : Expr → Expr) : List Expr → List Expr
  | [] => []
  | e :: es => e.bottomUp F :: Expr.bottomUpList F es
/-- ... pair -/
def EPair.bottomUp (F : Expr → Expr) : List EPair → List EPair
  | [] => []
  | .mk a b :: ps => .mk (a.bottomUp F) (b.bottomUp F) :: EPair.bottomUp F ps
/-- ... case -/
def ECase.bottomUp (F : Expr → Expr) : List ECase → List ECase
  | [] => []
  | .mk l e :: cs =>
      .mk (match F (.lit l) with | .lit l' => l' | _ => l) (e.bottomUp F) :: ECase.bottomUp F cs
/-- ... row of options -/
def ERow.bottomUp (F : Expr → Expr) : List ERow → List ERow
  | [] => []
  | .mk es :: rs => .mk (Expr.bottomUpList F es) :: ERow.bottomUp F rs
/-- ... argument -/
def EArg.bottomUp (F : Expr → Expr) : List EArg → List EArg
  | [] => []
  | .expr e :: as => (if (e.bottomUp F).isNil then .nil else .expr (e.bottomUp F)) :: EArg.bottomUp F as
  | x :: as => x :: EArg.bottomUp F as
end

mutual
/-- The expression with `F` applied to every subexpression, innermost first. -/
def Expr.everywhere (F : Expr → Expr) : Expr → Expr
  | .nil => .nil
  | .lit l => F (.lit l)
  | .fieldRef root ref t => F (.fieldRef (root.everywhere F) ref t)
  | .ifThen ifs els => F (.ifThen (EPair.everywhere F ifs) (els.everywhere F))
  | .cast ty e fail => F (.cast ty (e.everywhere F) fail)
  | .dynParam ty ref => F (.dynParam ty ref)
  | .switch e cases els => F (.switch (e.everywhere F) (ECase.everywhere F cases) (els.everywhere F))
  | .singularOr e os => F (.singularOr (e.everywhere F) (Expr.everywhereList F os))
  | .multiOr es os => F (.multiOr (Expr.everywhereList F es) (ERow.everywhere F os))
  | .mapE n v kvs => F (.mapE n v (EPair.everywhere F kvs))
  | .structE n v es => F (.structE n v (Expr.everywhereList F es))
  | .listE n v es => F (.listE n v (Expr.everywhereList F es))
  | .scalar f args => F (.scalar f (EArg.everywhere F args))
  | .window f w args sorts parts =>
      F (.window f w (EArg.everywhere F args) (ESort.everywhere F sorts) (Expr.everywhereList F parts))
  | .lambda n v ts e => F (.lambda n v ts (e.everywhere F))
  | .scalarSubquery r => F (.scalarSubquery r)
  | .inPredicate es r => F (.inPredicate (Expr.everywhereList F es) r)
  | .setPredicate op r => F (.setPredicate op r)
  | .setComparison red op e r => F (.setComparison red op (e.everywhere F) r)
/-- ... of the root of a field reference -/
def ERoot.everywhere (F : Expr → Expr) : ERoot → ERoot
  | .expr e => .expr (e.everywhere F)
  | r => r
/-- ... of each expression -/
def Expr.everywhereList (F : Expr → Expr) : List Expr → List Expr
  | [] => []
  | e :: es => e.everywhere F :: Expr.everywhereList F es
/-- ... pair -/
def EPair.everywhere (F : Expr → Expr) : List EPair → List EPair
  | [] => []
  | .mk a b :: ps => .mk (a.everywhere F) (b.everywhere F) :: EPair.everywhere F ps
/-- ... case -/
def ECase.everywhere (F : Expr → Expr) : List ECase → List ECase
  | [] => []
  | .mk l e :: cs =>
      .mk (match F (.lit l) with | .lit l' => l' | _ => l) (e.everywhere F) :: ECase.everywhere F cs
/-- ... row of options -/
def ERow.everywhere (F : Expr → Expr) : List ERow → List ERow
  | [] => []
  | .mk es :: rs => .mk (Expr.everywhereList F es) :: ERow.everywhere F rs
/-- ... argument -/
def EArg.everywhere (F : Expr → Expr) : List EArg → List EArg
  | [] => []
  | .expr e :: as =>
      (if (e.everywhere F).isNil then .nil else .expr (e.everywhere F)) :: EArg.everywhere F as
  | x :: as => x :: EArg.everywhere F as
/-- ... sort field -/
def ESort.everywhere (F : Expr → Expr) : List ESort → List ESort
  | [] => []
  | .mk e k :: ss => .mk (e.everywhere F) k :: ESort.everywhere F ss
end

/-- It has subexpressions that are not handed to the visitor. -/
def Expr.Hides : Expr → Prop
  | .fieldRef (.expr _) _ _ => True
  | .window _ _ _ sorts parts => sorts ≠ [] ∨ parts ≠ []
  | _ => False

/-- `d` is `e`, or handed to the visitor somewhere below `e`. -/
inductive Below : Expr → Expr → Prop
  | refl (e) : Below e e
  | kid (e c d) (hc : c ∈ e.kids) (h : Below c d) : Below e d

/-- A program that replaces the expressions of `D` by what `F` says: given a pointer behind which an
expression stands, it leaves existing cells as they are and returns a pointer behind which the new
expression stands, in cells that were known or are new. When it panics, `bad` holds. -/
def HVisitor.Does (tag : String → EArg) (f : HVisitor σ) (F : Expr → Expr) (D : Expr → Prop)
    (bad : Prop) : Prop :=
  ∀ (m : Known) (h : Heap) (e : Expr) (p : Ptr) (s : σ), D e → m.Of h → InMem tag m e p →
    match f p h s with
    | .ok (q, h', _) => Extends h h' ∧ InMem tag (m.after h h') (F e) q
    | _ => bad

end Verif
