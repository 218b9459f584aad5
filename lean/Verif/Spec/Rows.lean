import Verif.Spec.Value
import Verif.Spec.Output
import Verif.Spec.PlanBuild
/-!
# Specification vocabulary: the rows of a relation

What an engine makes of a relation, as far as the types of its rows are concerned. Nothing here is
code of the library; the rules are those of the Substrait specification. A relation is the set of rows
it can put out: neither order nor number of rows matter for types.
-/

namespace Verif

/-- What a plan is executed in: the world its expressions are evaluated in (whose current row is
replaced for each row), the rows stored in tables, what projection masks make of a row, which rows the
keys of a hash or merge join match, and the rows that extensions produce (given the columns of their
inputs). -/
structure Engine where
  world : World
  stored : NamedStruct → ReadKind → List Val → Prop
  mask : Nat → List Val → List Val → Prop
  keys : List JoinKey → List Val → List Val → Prop
  ext : ExtDef → List (List Ty) → List Val → Prop

/-- the world when the current row is `vs` -/
def Engine.at (g : Engine) (vs : List Val) : World := { g.world with row := .struct vs }

/-- the types when the current row has the columns `ts` -/
def Shape.at (s : Shape) (ts : List Ty) : Shape := { s with row := .struct NullabilityRequired 0 ts }

/-- The engine is as the types say: tables hold rows of their schemas, definitions of extensions put
out rows of the schemas they state, and the world fits its types. Nothing is known of extensions that
could not be decoded. -/
structure Engine.Fits (g : Engine) (s : Shape) : Prop where
  world : ∀ vs ts, Val.InTypes vs ts → (g.at vs).Fits (s.at ts)
  stored : ∀ t k vs, g.stored t k vs → Val.InTypes vs t.types
  ext : ∀ f n ins vs, g.ext (.custom f n) ins vs → Val.InTypes vs (f ins)

/-- The condition is absent or true on the row. -/
def Engine.Accepts (g : Engine) (cond : Expr) (vs : List Val) : Prop :=
  cond.isNil = true ∨ cond.Yields (g.at vs) (.bool true)

/-- What an output mapping makes of a row. -/
def RelCommon.EmitsRow (c : RelCommon) (direct out : List Val) : Prop :=
  match c.mapping with
  | none => out = direct
  | some m => Picks direct m out

/-- The rows of a join of the rows `L` and `R`, which have `nl` and `nr` columns, where `hit` tells
which rows match: a row without match is left out, put out alone or filled up with nulls. Nothing is
prescribed for unspecified join types. -/
def JoinRows (ty : JoinType) (L R : List Val → Prop) (hit : List Val → List Val → Prop) (nl nr : Nat)
    (vs : List Val) : Prop :=
  let both := ∃ a b, L a ∧ R b ∧ hit a b ∧ vs = a ++ b
  let onlyLeft := ∃ a, L a ∧ (¬ ∃ b, R b ∧ hit a b) ∧ vs = a ++ List.replicate nr .null
  let onlyRight := ∃ b, R b ∧ (¬ ∃ a, L a ∧ hit a b) ∧ vs = List.replicate nl .null ++ b
  match ty with
  | .inner => both
  | .outer => both ∨ onlyLeft ∨ onlyRight
  | .left | .leftSingle => both ∨ onlyLeft
  | .right | .rightSingle => both ∨ onlyRight
  | .leftSemi => L vs ∧ ∃ b, R b ∧ hit vs b
  | .leftAnti => L vs ∧ ¬ ∃ b, R b ∧ hit vs b
  | .rightSemi => R vs ∧ ∃ a, L a ∧ hit a vs
  | .rightAnti => R vs ∧ ¬ ∃ a, L a ∧ hit a vs
  | .unspecified | .other _ => False

/-- The columns of the grouping expressions in a row of the grouping set `set`: the values of the
expressions in the set, null for the others. -/
def GroupRow (w : World) (es : List Expr) (set : List UInt32) (vs : List Val) : Prop :=
  vs.length = es.length ∧ ∀ (k : Nat) (e : Expr) (v : Val), es[k]? = some e → vs[k]? = some v →
    ((∃ ref ∈ set, ref.toNat = k) → e.Yields w v) ∧ ((¬ ∃ ref ∈ set, ref.toNat = k) → v = .null)

/-- The columns of the measures: functions return what their declared output types say. -/
def MeasureRow (ms : List Measure) (vs : List Val) : Prop :=
  List.Forall₂ (fun (m : Measure) v => ∃ f, m.measure = some f ∧ v.InType f.a.outputType) ms vs

/-- The rows of an aggregate of the rows `I`: for each grouping set (an empty one if there are none)
the groups, the measures and, if there are several sets, the number of the set. An empty grouping set
has a row even if there is no input. -/
def AggregateRows (g : Engine) (I : List Val → Prop) (ms : List Measure) (es : List Expr)
    (sets : List (List UInt32)) (vs : List Val) : Prop :=
  ∃ (n : Nat) (set : List UInt32) (xs ys : List Val),
    (if sets = [] then [[]] else sets)[n]? = some set ∧
    ((∃ row, I row ∧ GroupRow (g.at row) es set xs) ∨
      (set = [] ∧ xs = List.replicate es.length .null)) ∧
    MeasureRow ms ys ∧
    vs = xs ++ ys ++
      (if 2 ≤ sets.length then [Val.simple (.prim .i32 NullabilityRequired 0) n] else [])

mutual
/-- The relation can put out the row, before its output mapping. The rows of an input `i` are those
that its output mapping makes of its own rows. -/
def Rel.Makes (g : Engine) : Rel → List Val → Prop
  | .read _ b k, vs => ∃ us,
      (match k with
        | .virt rows => ∃ row ∈ rows, Expr.YieldsList (g.at []) row us
        | k => g.stored b.schema k us) ∧
      g.Accepts b.filter us ∧
      (match b.projection with
        | none => vs = us
        | some p => g.mask p us vs)
  | .project _ i es _, vs => ∃ us ws, (∃ ds, i.Makes g ds ∧ i.common.EmitsRow ds us) ∧
      Expr.YieldsList (g.at us) es ws ∧ vs = us ++ ws
  | .join _ l r cond post ty _, vs => ∃ ls rs, l.recordType = .ok ls ∧ r.recordType = .ok rs ∧
      JoinRows ty (fun a => ∃ ds, l.Makes g ds ∧ l.common.EmitsRow ds a)
        (fun b => ∃ ds, r.Makes g ds ∧ r.common.EmitsRow ds b)
        (fun a b => g.Accepts cond (a ++ b)) ls.length rs.length vs ∧ g.Accepts post vs
  | .cross _ l r _, vs => ∃ a b, (∃ ds, l.Makes g ds ∧ l.common.EmitsRow ds a) ∧
      (∃ ds, r.Makes g ds ∧ r.common.EmitsRow ds b) ∧ vs = a ++ b
  | .fetch _ i _ _ _, vs => ∃ ds, i.Makes g ds ∧ i.common.EmitsRow ds vs
  | .sort _ i _ _, vs => ∃ ds, i.Makes g ds ∧ i.common.EmitsRow ds vs
  | .filter _ i cond _, vs => (∃ ds, i.Makes g ds ∧ i.common.EmitsRow ds vs) ∧ g.Accepts cond vs
  | .aggregate _ i ms es sets _, vs =>
      AggregateRows g (fun us => ∃ ds, i.Makes g ds ∧ i.common.EmitsRow ds us) ms es sets vs
  -- minus (1, 2) and intersection (3, 4) keep rows of the first input that are not in, or are in, the
  -- others; unions (5, 6) have the rows of all inputs
  | .set _ is op _, vs =>
      match is with
      | [] => False
      | i :: is =>
          if op = 5 ∨ op = 6 then
            (∃ ds, i.Makes g ds ∧ i.common.EmitsRow ds vs) ∨ Rel.AnyMakes g is vs
          else (∃ ds, i.Makes g ds ∧ i.common.EmitsRow ds vs) ∧
            (op = 1 → ¬ Rel.AnyMakes g is vs) ∧ (op = 2 → ¬ Rel.AllMake g is vs) ∧
            (op = 3 → Rel.AnyMakes g is vs) ∧ (op = 4 → Rel.AllMake g is vs)
  | .extSingle _ i d, vs => ∃ ts, i.recordType = .ok ts ∧ g.ext d [ts] vs
  | .extLeaf _ d, vs => g.ext d [] vs
  | .extMulti _ is d, vs => ∃ tss, Rel.recordTypes is = .ok tss ∧ g.ext d tss vs
  | .hashJoin _ l r ks post ty _, vs => ∃ ls rs, l.recordType = .ok ls ∧ r.recordType = .ok rs ∧
      JoinRows ty.asJoin (fun a => ∃ ds, l.Makes g ds ∧ l.common.EmitsRow ds a)
        (fun b => ∃ ds, r.Makes g ds ∧ r.common.EmitsRow ds b) (g.keys ks) ls.length rs.length vs ∧
      g.Accepts post vs
  | .mergeJoin _ l r ks post ty _, vs => ∃ ls rs, l.recordType = .ok ls ∧ r.recordType = .ok rs ∧
      JoinRows ty.asJoin (fun a => ∃ ds, l.Makes g ds ∧ l.common.EmitsRow ds a)
        (fun b => ∃ ds, r.Makes g ds ∧ r.common.EmitsRow ds b) (g.keys ks) ls.length rs.length vs ∧
      g.Accepts post vs
  -- the records written, or nothing
  | .write _ _ _ _ _ i mode, vs =>
      match mode with
      | .modifiedRecords => ∃ ds, i.Makes g ds ∧ i.common.EmitsRow ds vs
      | _ => False
/-- some relation of the list puts out the row -/
def Rel.AnyMakes (g : Engine) : List Rel → List Val → Prop
  | [], _ => False
  | i :: is, vs => (∃ ds, i.Makes g ds ∧ i.common.EmitsRow ds vs) ∨ Rel.AnyMakes g is vs
/-- every relation of the list puts out the row -/
def Rel.AllMake (g : Engine) : List Rel → List Val → Prop
  | [], _ => True
  | i :: is, vs => (∃ ds, i.Makes g ds ∧ i.common.EmitsRow ds vs) ∧ Rel.AllMake g is vs
end

/-- The relation can put out the row. -/
def Rel.Yields (g : Engine) (r : Rel) (vs : List Val) : Prop :=
  ∃ ds, r.Makes g ds ∧ r.common.EmitsRow ds vs

/-! ## Conditions -/

/-- Expressions in order for rows with the columns `ts`, see `Expr.Checked` and `Expr.Careful`. -/
def Shape.Good (s : Shape) (ts : List Ty) (es : List Expr) : Prop :=
  Expr.CheckedList (s.at ts) es ∧ EPlain.CarefulList (s.at ts) es

/-- Values of the columns `us` are values of the columns `ts`. -/
def ColumnsWithin (us ts : List Ty) : Prop :=
  List.Forall₂ (fun (u t : Ty) => u.SameKind t ∧ (u.IsNullable → t.IsNullable)) us ts

mutual
/-- The expressions whose values become columns are in order. -/
def Rel.ExprsGood (s : Shape) : Rel → Prop
  | .read _ _ k => ∀ rows, k = .virt rows → ∀ row ∈ rows, s.Good [] row
  | .project _ i es _ => i.ExprsGood s ∧ ∃ ts, i.recordType = .ok ts ∧ s.Good ts es
  | .join _ l r _ _ _ _ => l.ExprsGood s ∧ r.ExprsGood s
  | .cross _ l r _ => l.ExprsGood s ∧ r.ExprsGood s
  | .fetch _ i _ _ _ => i.ExprsGood s
  | .sort _ i _ _ => i.ExprsGood s
  | .filter _ i _ _ => i.ExprsGood s
  | .aggregate _ i _ es _ _ => i.ExprsGood s ∧ ∃ ts, i.recordType = .ok ts ∧ s.Good ts es
  | .set _ is _ _ => Rel.AllExprsGood s is
  | .extSingle .. => True
  | .extLeaf .. => True
  | .extMulti .. => True
  | .hashJoin _ l r _ _ _ _ => l.ExprsGood s ∧ r.ExprsGood s
  | .mergeJoin _ l r _ _ _ _ => l.ExprsGood s ∧ r.ExprsGood s
  | .write _ _ _ _ _ i _ => i.ExprsGood s
/-- ... of each relation -/
def Rel.AllExprsGood (s : Shape) : List Rel → Prop
  | [] => True
  | i :: is => i.ExprsGood s ∧ Rel.AllExprsGood s is
end

mutual
/-- What C121 is proved for: reads without projection mask; virtual tables all of whose rows have the
columns of the schema; hash and merge joins meant to keep all columns as they are; unions of inputs
whose rows are rows of the first; at most one grouping set, which lists all grouping expressions in
order; extensions that were decoded; writes of rows of the table. -/
def Rel.PlainRows : Rel → Prop
  | .read _ b k => b.projection = none ∧ ∀ rows, k = .virt rows → ∀ row ∈ rows,
      ∃ us, Expr.getTypes row = .ok us ∧ ColumnsWithin us b.schema.types
  | .project _ i _ _ => i.PlainRows
  | .join _ l r _ _ _ _ => l.PlainRows ∧ r.PlainRows
  | .cross _ l r _ => l.PlainRows ∧ r.PlainRows
  | .fetch _ i _ _ _ => i.PlainRows
  | .sort _ i _ _ => i.PlainRows
  | .filter _ i _ _ => i.PlainRows
  | .aggregate _ i _ es sets _ => i.PlainRows ∧ sets.length ≤ 1 ∧
      sets.flatten.map UInt32.toNat = List.range es.length
  | .set _ is op _ => Rel.AllPlainRows is ∧ (op = 5 ∨ op = 6 → ∀ i rest, is = i :: rest →
      ∃ ts, i.recordType = .ok ts ∧ ∀ j ∈ rest, ∃ us, j.recordType = .ok us ∧ ColumnsWithin us ts)
  | .extSingle _ _ d => ∃ f n, d = .custom f n
  | .extLeaf _ d => ∃ f n, d = .custom f n
  | .extMulti _ _ d => ∃ f n, d = .custom f n
  | .hashJoin _ l r _ _ ty _ => l.PlainRows ∧ r.PlainRows ∧
      ∃ ls rs, l.recordType = .ok ls ∧ r.recordType = .ok rs ∧ ty.KeepsAll ls rs
  | .mergeJoin _ l r _ _ ty _ => l.PlainRows ∧ r.PlainRows ∧
      ∃ ls rs, l.recordType = .ok ls ∧ r.recordType = .ok rs ∧ ty.KeepsAll ls rs
  | .write _ _ _ t _ i mode => i.PlainRows ∧ (mode = .modifiedRecords →
      ∃ us, i.recordType = .ok us ∧ ColumnsWithin us t.types)
/-- ... of each relation -/
def Rel.AllPlainRows : List Rel → Prop
  | [] => True
  | i :: is => i.PlainRows ∧ Rel.AllPlainRows is
end

/-- What is asked of the arguments of a builder call: expressions that become columns are in order,
the rows of a virtual table all have one value per name, columns have types of plans where the builder
compares types, and a created table has columns for the rows put into it. -/
def BuildCall.RowsGood (s : Shape) : BuildCall → Prop
  | .project i es => ∀ x ts, i = some x → x.recordType = .ok ts → s.Good ts es
  | .virt ns rows => ∀ row ∈ rows, s.Good [] row ∧ row.length = ns.length ∧
      ∀ e ∈ row, ∀ t, e.getType = .ok t → t.PlanType
  | .set _ is => ∀ x ts, some x ∈ is → x.recordType = .ok ts → ∀ t ∈ ts, t.PlanType
  | .ctas i _ t => ∀ x us, i = some x → x.recordType = .ok us → ColumnsWithin us t.types
  | _ => True

/-- The relations that calls of the plan builder make, one after another: `Project`, `Cross`, `Fetch`,
`Filter`, `Join…`, `Sort`, `Set`, `NamedScan`, `VirtualTable…`, `NamedWrite` and `CreateTableAsSelect`
with or without output mapping, and `AggregateColumns`. -/
inductive Assembled (s : Shape) : Rel → Prop
  | call (c : BuildCall) (m : Option (List Int32)) (r : Rel) (h : c.run m = .ok r)
      (inputs : ∀ x, c.Takes x → Assembled s x) (parts : c.RowsGood s) : Assembled s r
  | columns (i : Rel) (ts : List Ty) (ms : List Measure) (cols : List Int32) (r : Rel)
      (h : aggregateByColumns (some i) ms cols = .ok r) (ht : i.recordType = .ok ts)
      (hc : Countable ts) (hne : cols ≠ []) (hl : cols.length < 2 ^ 32) (input : Assembled s i) :
      Assembled s r

end Verif
