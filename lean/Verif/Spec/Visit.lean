import Verif.Model.Visit
/-!
# Specification vocabulary for `Visit`

What an expression node in memory *is*, one level deep: its kind with all attributes that are not
expressions, and its child expressions in order. Rewriting a node means applying the visitor to
each child in that order.
-/

namespace Verif

/-- Kind and non-expression attributes. -/
inductive Head where
  | literal (l : Lit)
  | fieldRef (root : VRoot) (ref : ERef) (knownType : Option Ty)
  | ifThen
  | cast (ty : Ty) (fail : Int32)
  | dynParam (ty : Ty) (ref : UInt32)
  | switch
  | singularOr
  | multiOr
  | mapE (nullable : Bool) (variation : UInt32)
  | structE (nullable : Bool) (variation : UInt32)
  | listE (nullable : Bool) (variation : UInt32)
  | scalar (a : FnAttrs)
  | window (a : FnAttrs) (w : WinAttrs)
  | lambda (params : Ty)
  | scalarSubquery (input : RelRef)
  | inPredicate (haystack : RelRef)
  | setPredicate (op : Int32) (tuples : RelRef)
  | setComparison (reduction comparison : Int32) (right : Option RelRef)

/-- A node seen one level deep. `rows` are its groups of children (if-then: the pairs, then the
else; switch: match, pairs, else; or-lists: value(s), then options; window: arguments, sorts,
partitions; field reference: its root expression, if it has one; ...). -/
structure View where
  head : Head
  rows : List (List Slot)

/-- All elements are expressions / pairs / function arguments / sort fields. -/
def AllPtr (l : List Slot) : Prop := ∀ x ∈ l, ∃ p, x = .ptr p
def AllPair (l : List Slot) : Prop := ∀ x ∈ l, ∃ p q, x = .pair p q
def AllArg (l : List Slot) : Prop := ∀ x ∈ l, ∃ a, x = .arg a
def AllSort (l : List Slot) : Prop := ∀ x ∈ l, ∃ p k, x = .sort p k

/-- The array at an address holds these elements. -/
def Holds (h : Heap) (a : Addr) (l : List Slot) : Prop := h[a]? = some (.arr l)

/-- An options row: the nil slice, or an array. -/
def HoldsRow (h : Heap) : Slot → List Slot → Prop
  | .row none, l => l = []
  | .row (some a), l => Holds h a l
  | _, _ => False

/-- The rows of a slice of slices, in order. -/
inductive HoldsRows (h : Heap) : List Slot → List (List Slot) → Prop
  | nil : HoldsRows h [] []
  | cons (s ss l ls) (h1 : HoldsRow h s l) (h2 : HoldsRows h ss ls) :
      HoldsRows h (s :: ss) (l :: ls)

/-- What the node at an address is. -/
inductive Shows (h : Heap) : Addr → View → Prop
  | literal (e l) (hn : h[e]? = some (.node (.literal l))) : Shows h e ⟨.literal l, []⟩
  | fieldRefExpr (e r ref t) (hn : h[e]? = some (.node (.fieldRef (.expr r) ref t))) :
      Shows h e ⟨.fieldRef (.expr r) ref t, [[.ptr (some r)]]⟩
  | fieldRef (e root ref t) (hr : ∀ r, root ≠ .expr r)
      (hn : h[e]? = some (.node (.fieldRef root ref t))) : Shows h e ⟨.fieldRef root ref t, []⟩
  | ifThen (e ifs els l) (hn : h[e]? = some (.node (.ifThen ifs els))) (hl : Holds h ifs l)
      (hk : AllPair l) : Shows h e ⟨.ifThen, [l, [.ptr els]]⟩
  | cast (e ty input fail) (hn : h[e]? = some (.node (.cast ty input fail))) :
      Shows h e ⟨.cast ty fail, [[.ptr input]]⟩
  | dynParam (e ty ref) (hn : h[e]? = some (.node (.dynParam ty ref))) :
      Shows h e ⟨.dynParam ty ref, []⟩
  | switch (e m ifs els l) (hn : h[e]? = some (.node (.switch m ifs els))) (hl : Holds h ifs l)
      (hk : AllPair l) : Shows h e ⟨.switch, [[.ptr m], l, [.ptr els]]⟩
  | singularOr (e v o l) (hn : h[e]? = some (.node (.singularOr v o))) (hl : Holds h o l)
      (hk : AllPtr l) : Shows h e ⟨.singularOr, [[.ptr v], l]⟩
  | multiOr (e v o l os rows) (hn : h[e]? = some (.node (.multiOr v o))) (hv : Holds h v l)
      (hk : AllPtr l) (ho : Holds h o os) (hr : HoldsRows h os rows)
      (hkr : ∀ r ∈ rows, AllPtr r) : Shows h e ⟨.multiOr, l :: rows⟩
  | mapE (e n v a l) (hn : h[e]? = some (.node (.mapE n v a))) (hl : Holds h a l)
      (hk : AllPair l) : Shows h e ⟨.mapE n v, [l]⟩
  | structE (e n v a l) (hn : h[e]? = some (.node (.structE n v a))) (hl : Holds h a l)
      (hk : AllPtr l) : Shows h e ⟨.structE n v, [l]⟩
  | listE (e n v a l) (hn : h[e]? = some (.node (.listE n v a))) (hl : Holds h a l)
      (hk : AllPtr l) : Shows h e ⟨.listE n v, [l]⟩
  | scalar (e at_ a l) (hn : h[e]? = some (.node (.scalar at_ a))) (hl : Holds h a l)
      (hk : AllArg l) : Shows h e ⟨.scalar at_, [l]⟩
  | window (e at_ w a s p l ls lp) (hn : h[e]? = some (.node (.window at_ w a s p)))
      (hl : Holds h a l) (hk : AllArg l) (hs : Holds h s ls) (hks : AllSort ls)
      (hp : Holds h p lp) (hkp : AllPtr lp) : Shows h e ⟨.window at_ w, [l, ls, lp]⟩
  | lambda (e ps b) (hn : h[e]? = some (.node (.lambda ps b))) : Shows h e ⟨.lambda ps, [[.ptr b]]⟩
  | scalarSubquery (e i) (hn : h[e]? = some (.node (.scalarSubquery i))) :
      Shows h e ⟨.scalarSubquery i, []⟩
  | inPredicate (e a r l) (hn : h[e]? = some (.node (.inPredicate a r))) (hl : Holds h a l)
      (hk : AllPtr l) : Shows h e ⟨.inPredicate r, [l]⟩
  | setPredicate (e op r) (hn : h[e]? = some (.node (.setPredicate op r))) :
      Shows h e ⟨.setPredicate op r, []⟩
  | setComparison (e a b l r) (hn : h[e]? = some (.node (.setComparison a b l r))) :
      Shows h e ⟨.setComparison a b r, [[.ptr l]]⟩

/-- Apply the visitor to the expressions of one element. -/
def Slot.rewrite (f : Visitor σ) (x : Slot) (s : σ) : Res (Slot × σ) :=
  match x with
  | .ptr p => f p s >>= fun r => .ok (.ptr r.1, r.2)
  | .pair p q => f p s >>= fun r => f q r.2 >>= fun r' => .ok (.pair r.1 r'.1, r'.2)
  | .arg (.expr a) => f (some a) s >>= fun r =>
      .ok (.arg (match r.1 with | some b => .expr b | none => .other "nil"), r.2)
  | .arg (.other t) => .ok (.arg (.other t), s)
  | .sort p k => f p s >>= fun r => .ok (.sort r.1 k, r.2)
  | .row r => .ok (.row r, s)

/-- ... of a group of elements, in order. -/
def rewriteRow (f : Visitor σ) : List Slot → σ → Res (List Slot × σ)
  | [], s => .ok ([], s)
  | x :: xs, s => x.rewrite f s >>= fun r => rewriteRow f xs r.2 >>= fun r' =>
      .ok (r.1 :: r'.1, r'.2)

/-- ... of all groups, in order. -/
def rewriteRows (f : Visitor σ) : List (List Slot) → σ → Res (List (List Slot) × σ)
  | [], s => .ok ([], s)
  | x :: xs, s => rewriteRow f x s >>= fun r => rewriteRows f xs r.2 >>= fun r' =>
      .ok (r.1 :: r'.1, r'.2)

/-- The node with every child replaced; kind and attributes stay. The root of a field reference is
part of its head, so a rewritten root also changes the head. -/
def View.rewrite (f : Visitor σ) (v : View) (s : σ) : Res (View × σ) :=
  rewriteRows f v.rows s >>= fun r =>
  .ok (⟨match v.head, r.1 with
        | .fieldRef (.expr _) ref t, [[.ptr (some a)]] => .fieldRef (.expr a) ref t
        | h, _ => h, r.1⟩, r.2)

/-- The child expressions of one element. -/
def Slot.children : Slot → List Ptr
  | .ptr p => [p]
  | .pair p q => [p, q]
  | .arg (.expr a) => [some a]
  | .arg (.other _) => []
  | .sort p _ => [p]
  | .row _ => []

/-- All child expressions of a node, in order. -/
def View.children (v : View) : List Ptr := v.rows.flatMap (fun r => r.flatMap Slot.children)

/-- Nodes whose children are all reachable by `Visit`: a window function without sort and partition
expressions, a field reference without a root expression, every other node. -/
def View.NoHidden (v : View) : Prop :=
  match v.head with
  | .window _ _ => ∃ l, v.rows = [l, [], []]
  | .fieldRef (.expr _) _ _ => False
  | _ => True

/-- The old memory is untouched: the new one only adds cells. -/
def Extends (h h' : Heap) : Prop := ∃ added, h' = h ++ added

/-- The case labels of a rewritten switch are literals (or nothing changed). -/
def LabelsOk (isLit : Ptr → Bool) (v v' : View) : Prop :=
  v.head = .switch →
    v'.rows = v.rows ∨ ∀ row ∈ v'.rows, ∀ a b, Slot.pair a b ∈ row → isLit a = true

/-- In a multi-or-list, options change only if some value changes too (or nothing changed). -/
def OptionsOk (v v' : View) : Prop :=
  v.head = .multiOr → v'.rows = v.rows ∨ v'.rows.head? ≠ v.rows.head?

/-- A visitor that returns every child unchanged; it may record anything in its state. -/
def Unchanged (g : Ptr → σ → σ) : Visitor σ := fun p s => .ok (p, g p s)

end Verif
