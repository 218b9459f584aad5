import Verif.Model.Rel
import Verif.Model.TypeNames
/-!
# Computing schemas in memory

The slices behind `RecordType` (`plan/common.go`, `plan/relations.go`, `types/types.go`): a record
type is a slice of pointers to type objects, `append` may write into the array it is given, and
`WithNullability` of an interval_day type overwrites its receiver.

Only what the schema computation reads and writes is kept of a relation. Simplifications: slices
start at the beginning of their array; a nil slice is an empty array; the type of an expression is
an object that exists already (some `GetType` methods allocate one).
-/

namespace Verif

/-- Type objects by address, and arrays of pointers to them (an array's length is its capacity). -/
structure RMem where
  objs : TypeMem
  arrs : List (List Nat)

/-- A slice `[]types.Type`: an array and a length. `RecordType` is such a slice
(`types/types.go:1779-1781`). -/
structure RSlice where
  arr : Nat
  len : Nat
  deriving DecidableEq, Repr

/-- How many spare slots `append` allocates, given the old capacity and the length needed; this is
up to the Go runtime. -/
abbrev Growth := Nat → Nat → Nat

/-- The elements of a slice. -/
def RMem.elems (m : RMem) (s : RSlice) : Res (List Nat) :=
  match m.arrs[s.arr]? with
  | none => .panic
  | some a => if s.len ≤ a.length then .ok (a.take s.len) else .panic

/-- A new array holding `xs` and `spare` unused slots (`make`, `slices.Clone`, a growing
`append`). -/
def RMem.alloc (m : RMem) (xs : List Nat) (spare : Nat) : RSlice × RMem :=
  (⟨m.arrs.length, xs.length⟩, { m with arrs := m.arrs ++ [xs ++ List.replicate spare 0] })

/-- `append(s, xs...)`: in place when the capacity suffices. -/
def RMem.append (g : Growth) (m : RMem) (s : RSlice) (xs : List Nat) : Res (RSlice × RMem) :=
  match m.arrs[s.arr]? with
  | none => .panic
  | some a =>
      if s.len + xs.length ≤ a.length then
        .ok (⟨s.arr, s.len + xs.length⟩,
          { m with arrs := m.arrs.set s.arr (a.take s.len ++ xs ++ a.drop (s.len + xs.length)) })
      else .ok (m.alloc (a.take s.len ++ xs) (g a.length (s.len + xs.length)))

/-- `types[i] = x` -/
def RMem.store (m : RMem) (s : RSlice) (i x : Nat) : RMem :=
  { m with arrs := m.arrs.modify s.arr (·.set i x) }

/-- `t.WithNullability(types.NullabilityNullable)` on each type in turn; the results
(`plan/relations.go:840-842,847-849`). -/
def RMem.nullables (m : RMem) : List Nat → Res (List Nat × RMem)
  | [] => .ok ([], m)
  | a :: as =>
      withNullabilityAt m.objs a NullabilityNullable >>= fun (objs, b) =>
      RMem.nullables { m with objs := objs } as >>= fun (bs, m) => .ok (b :: bs, m)

/-- The loop `for i, t := range typeList { typeList[i] = t.WithNullability(..) }` of the outer join,
`plan/relations.go:832-834`, from position `i` on. The slice header is evaluated once; the element
is read in each round, but no round writes an element that a later one reads. -/
def RMem.nullableInPlace (s : RSlice) : RMem → Nat → List Nat → Res RMem
  | m, _, [] => .ok m
  | m, i, a :: as =>
      withNullabilityAt m.objs a NullabilityNullable >>= fun (objs, b) =>
      RMem.nullableInPlace s (RMem.store { m with objs := objs } s i b) (i + 1) as

/-- A relation as far as `RecordType` is concerned (relation types as in `Rel`):
* `scan`: the read relations and a write returning the modified records — the schema's own slice;
* `empty`: a write without output, an undecoded extension without or with several inputs, a join
  of unspecified type;
* `project`, `aggregate`: the addresses of the expression types (grouping columns, then measures);
* `concat`: cross, hash join, merge join;
* `pass`: fetch, sort, filter, the first input of a set, an undecoded extension with one input. -/
inductive MRel where
  | scan (mapping : Option (List Int32)) (schema : RSlice)
  | empty (mapping : Option (List Int32))
  | project (mapping : Option (List Int32)) (input : MRel) (types : List Nat)
  | join (mapping : Option (List Int32)) (l r : MRel) (ty : JoinType)
  | concat (mapping : Option (List Int32)) (l r : MRel)
  | pass (mapping : Option (List Int32)) (input : MRel)
  | aggregate (mapping : Option (List Int32)) (types : List Nat)

/-- `RelCommon.remap`, `plan/common.go:145-157` -/
def RMem.remap (m : RMem) (mapping : Option (List Int32)) (s : RSlice) : Res (RSlice × RMem) :=
  match mapping with
  | none => .ok (s, m)
  | some is =>
      m.elems s >>= fun xs =>
      Res.mapL (fun i : Int32 => Res.index xs i.toInt) is >>= fun ys => .ok (m.alloc ys 0)

/-- `RecordType.Concat`, `types/types.go:1815-1817`, of two slices evaluated before -/
def RMem.concat (g : Growth) (m : RMem) (l r : RSlice) : Res (RSlice × RMem) :=
  m.elems r >>= fun xs => m.append g l xs

/-- `RecordType()` run in memory: the slice returned and the memory afterwards. Same citations as
`Rel.directOutputSchema` and `Rel.recordType`; `slices.Clone`, `slices.Grow` and the appends of the
project (`plan/relations.go:707-714`) are one new array, as are `make` and the appends of the left
and right joins (839-849) and of the aggregate (1138-1150). -/
def MRel.recordType (g : Growth) : MRel → RMem → Res (RSlice × RMem)
  | .scan mp s, m => m.remap mp s
  | .empty mp, m => let (s, m) := m.alloc [] 0; m.remap mp s
  | .project mp i ts, m =>
      i.recordType g m >>= fun (s, m) => m.elems s >>= fun xs =>
      let (s, m) := m.alloc (xs ++ ts) (g xs.length ts.length)
      m.remap mp s
  | .join mp l r ty, m =>
      (match ty with
      | .inner =>
          l.recordType g m >>= fun (ls, m) => r.recordType g m >>= fun (rs, m) =>
          m.concat g ls rs
      | .leftSemi | .leftAnti => l.recordType g m
      | .outer =>
          l.recordType g m >>= fun (ls, m) => r.recordType g m >>= fun (rs, m) =>
          m.concat g ls rs >>= fun (s, m) =>
          m.elems s >>= fun xs => m.nullableInPlace s 0 xs >>= fun m => .ok (s, m)
      | .left | .leftSingle =>
          l.recordType g m >>= fun (ls, m) => r.recordType g m >>= fun (rs, m) =>
          m.elems ls >>= fun xs => m.elems rs >>= fun ys =>
          m.nullables ys >>= fun (ys, m) => .ok (m.alloc (xs ++ ys) 0)
      | .right | .rightSingle =>
          l.recordType g m >>= fun (ls, m) => r.recordType g m >>= fun (rs, m) =>
          m.elems ls >>= fun xs => m.elems rs >>= fun ys =>
          m.nullables xs >>= fun (xs, m) => .ok (m.alloc (xs ++ ys) 0)
      | .rightSemi | .rightAnti => r.recordType g m
      | .unspecified | .other _ => .ok (m.alloc [] 0)) >>= fun (s, m) => m.remap mp s
  | .concat mp l r, m =>
      l.recordType g m >>= fun (ls, m) => r.recordType g m >>= fun (rs, m) =>
      m.concat g ls rs >>= fun (s, m) => m.remap mp s
  | .pass mp i, m => i.recordType g m >>= fun (s, m) => m.remap mp s
  | .aggregate mp ts, m =>
      let (s, m) := m.alloc ts (g 0 ts.length)
      m.remap mp s

end Verif
