import Verif.Spec.Rel
/-!
# The output columns prescribed for relations

What the Substrait specification says about the output of each relation, given the columns of its
inputs. `den` gives the meaning of the projection masks of reads, which are opaque in the model.
-/

namespace Verif

/-- The join type a hash or merge join type (`plan/relations.go:1809-1821`) stands for. -/
def HashMergeJoinType.asJoin (t : HashMergeJoinType) : JoinType :=
  if t = 1 then .inner
  else if t = 2 then .outer
  else if t = 3 then .left
  else if t = 4 then .right
  else if t = 5 then .leftSemi
  else if t = 6 then .rightSemi
  else if t = 7 then .leftAnti
  else if t = 8 then .rightAnti
  else .unspecified

/-- The grouping columns of an aggregate: one column per grouping expression, in the order of the
expressions, of the type of the expression; made nullable if some grouping set leaves the expression
out. -/
def GroupingColumns (es : List Expr) (sets : List (List UInt32)) (out : List Ty) : Prop :=
  out.length = es.length ∧
  ∀ (k : Nat) (e : Expr) (u : Ty), es[k]? = some e → out[k]? = some u →
    ∃ t, e.getType = .ok t ∧
      ((∀ set ∈ sets, ∃ ref ∈ set, ref.toNat = k) → u = t) ∧
      ((∃ set ∈ sets, ∀ ref ∈ set, ref.toNat ≠ k) → NullableOf t u)

/-- The columns of the measures of an aggregate: their output types. -/
def MeasureColumns (ms : List Measure) (out : List Ty) : Prop :=
  List.Forall₂ (fun (m : Measure) t => ∃ f, m.measure = some f ∧ t = f.a.outputType) ms out

/-- The columns of a union: those of the first input, made nullable where the column of some input is
nullable. -/
def UnionColumns (ins : List (List Ty)) (out : List Ty) : Prop :=
  ∃ first, ins.head? = some first ∧ out.length = first.length ∧
    ∀ (k : Nat) (t u : Ty), first[k]? = some t → out[k]? = some u →
      ((∃ ts ∈ ins, ∃ v, ts[k]? = some v ∧ v.nullability = NullabilityNullable) → NullableOf t u) ∧
      ((∀ ts ∈ ins, ∀ v, ts[k]? = some v → v.nullability ≠ NullabilityNullable) → u = t)

/-- `out` are the columns prescribed for the relation `r`, before its output mapping, when its inputs
have the columns `ins`. For the intersections only the case of inputs with the same columns is
prescribed here; nothing is prescribed for undecoded extensions and unspecified join types. -/
def Rel.Prescribes (den : Nat → List Ty → List Ty) (r : Rel) (ins : List (List Ty)) (out : List Ty) :
    Prop :=
  match r with
  | .read _ b _ => out = match b.projection with
      | none => b.schema.types
      | some p => den p b.schema.types
  | .project _ _ es _ => ∃ ts us, ins = [ts] ∧
      List.Forall₂ (fun (e : Expr) u => e.getType = .ok u) es us ∧ out = ts ++ us
  | .join _ _ _ _ _ ty _ => ∃ ls rs, ins = [ls, rs] ∧ JoinColumns ty ls rs out
  | .hashJoin _ _ _ _ _ ty _ => ∃ ls rs, ins = [ls, rs] ∧ JoinColumns ty.asJoin ls rs out
  | .mergeJoin _ _ _ _ _ ty _ => ∃ ls rs, ins = [ls, rs] ∧ JoinColumns ty.asJoin ls rs out
  | .cross _ _ _ _ => ∃ ls rs, ins = [ls, rs] ∧ out = ls ++ rs
  | .fetch _ _ _ _ _ => ins = [out]
  | .sort _ _ _ _ => ins = [out]
  | .filter _ _ _ _ => ins = [out]
  | .set _ _ op _ =>
      if op = 5 ∨ op = 6 then UnionColumns ins out
      else if op = 1 ∨ op = 2 then ins.head? = some out
      else ∀ first, (∀ ts ∈ ins, ts = first) → out = first
  | .aggregate _ _ ms es sets _ => ∃ gs us, GroupingColumns es sets gs ∧ MeasureColumns ms us ∧
      out = gs ++ us ++ (if 2 ≤ sets.length then [Ty.prim .i32 NullabilityRequired 0] else [])
  | .write _ _ _ s _ _ mode =>
      match mode with
      | .noOutput => out = []
      | .modifiedRecords => out = s.types
      | .unspecified | .other _ => True
  | .extSingle _ _ d => match d with
      | .custom f _ => out = f ins
      | .undecoded _ => True
  | .extLeaf _ d => match d with
      | .custom f _ => out = f ins
      | .undecoded _ => True
  | .extMulti _ _ d => match d with
      | .custom f _ => out = f ins
      | .undecoded _ => True

/-- `out` is what the output mapping of `r` makes of the columns `direct`. -/
def Rel.Emits (r : Rel) (direct out : List Ty) : Prop :=
  match r.common.mapping with
  | none => out = direct
  | some m => Picks direct m out

/-- A hash or merge join of inputs with the columns `ls` and `rs` is meant to put out all columns of
both inputs unchanged: it is an inner join, or the columns it would make nullable are so already, or
the input it would leave out has no columns. -/
def HashMergeJoinType.KeepsAll (t : HashMergeJoinType) (ls rs : List Ty) : Prop :=
  (t = 2 → (∀ c ∈ ls, c.nullability = NullabilityNullable) ∧ ∀ c ∈ rs, c.nullability = NullabilityNullable) ∧
  (t = 3 → ∀ c ∈ rs, c.nullability = NullabilityNullable) ∧
  (t = 4 → ∀ c ∈ ls, c.nullability = NullabilityNullable) ∧
  (t = 5 ∨ t = 7 → rs = []) ∧
  (t = 6 ∨ t = 8 → ls = [])

/-- The relations, with the columns of their inputs, for which C119 is proved: no projection mask; a
hash or merge join meant to keep all columns as they are; set inputs whose columns are nullable only where those of
the first are; at most one grouping set, which lists all grouping expressions in order. -/
def Rel.PlainOutput (r : Rel) (ins : List (List Ty)) : Prop :=
  match r with
  | .read _ b _ => b.projection = none
  | .hashJoin _ _ _ _ _ ty _ => ∀ ls rs, ins = [ls, rs] → ty.KeepsAll ls rs
  | .mergeJoin _ _ _ _ _ ty _ => ∀ ls rs, ins = [ls, rs] → ty.KeepsAll ls rs
  | .set _ _ _ _ => ∀ first rest, ins = first :: rest → ∀ ts ∈ rest, ∀ (k : Nat) v t,
      ts[k]? = some v → v.nullability = NullabilityNullable → first[k]? = some t →
        t.nullability = NullabilityNullable
  | .aggregate _ _ _ es sets _ => sets.length ≤ 1 ∧ sets.flatten.map UInt32.toNat = List.range es.length
  | _ => True

end Verif
