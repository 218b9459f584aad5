import Verif.Model.Types
/-!
# Depth-first names of a schema, and receiver effects of `WithNullability`

Models `types/types.go:1224-1246` (name counting), `types/types.go:1722-1776`
(`NamedStruct.String`), and what `WithNullability` does to the object it is called on.
-/

namespace Verif

mutual
/-- `StructType.DepthFirstNameCount`, `types/types.go:1224-1231`, on the list of field types. -/
def depthFirstNameCount : List Ty → Nat
  | [] => 0
  | t :: ts => 1 + nestedNameCount t + depthFirstNameCount ts
/-- `nestedNameCount`, `types/types.go:1235-1246`. -/
def nestedNameCount : Ty → Nat
  | .struct _ _ ts => depthFirstNameCount ts
  | .list _ _ t => nestedNameCount t
  | .map _ _ k e => nestedNameCount k + nestedNameCount e
  | _ => 0
end

/-- Pieces written to the `strings.Builder` of `NamedStruct.String`: a name read from `Names`,
fixed punctuation (with the nullability mark folded in), or the rendering of a leaf type. -/
inductive Tok where
  | name (s : String)
  | lit (s : String)
  | leaf (t : Ty)

/-- `n.Names[nameIdx]`: panics when out of range. -/
def nameAt (names : List String) (i : Nat) : Res String :=
  match names[i]? with
  | some s => .ok s
  | none => .panic

/-- `strNullable`, `types/types.go:860-869` -/
def strNullable (n : Nullability) : String := if n = NullabilityNullable then "?" else ""

mutual
/-- the closure `writeType`, `types/types.go:1730-1760`: returns what it wrote and the new
`nameIdx`. -/
def writeType (names : List String) : Ty → Nat → Res (List Tok × Nat)
  | .struct n _ ts, i =>
      writeFields names true ts i >>= fun (out, j) =>
        .ok (.lit "struct<" :: out ++ [.lit ">", .lit (strNullable n)], j)
  | .map n _ k e, i =>
      writeType names k i >>= fun (o1, j) =>
        writeType names e j >>= fun (o2, l) =>
          .ok (.lit "map<" :: o1 ++ .lit "," :: o2 ++ [.lit ">", .lit (strNullable n)], l)
  | .list n _ t, i =>
      writeType names t i >>= fun (o, j) =>
        .ok (.lit "list<" :: o ++ [.lit ">", .lit (strNullable n)], j)
  | t, i => .ok ([.leaf t], i)
/-- the field loops, `types/types.go:1734-1742` and `1763-1772` -/
def writeFields (names : List String) (first : Bool) : List Ty → Nat → Res (List Tok × Nat)
  | [], i => .ok ([], i)
  | t :: ts, i =>
      nameAt names i >>= fun s =>
        writeType names t (i + 1) >>= fun (o1, j) =>
          writeFields names false ts j >>= fun (o2, l) =>
            .ok ((if first then [] else [.lit ", "]) ++ .name s :: .lit ": " :: o1 ++ o2, l)
end

/-- `NamedStruct.String`, `types/types.go:1722-1776` -/
def namedStructString (names : List String) (ts : List Ty) : Res (List Tok) :=
  writeFields names true ts 0 >>= fun (o, _) => .ok (.lit "NSTRUCT<" :: o ++ [.lit ">"])

/-! ## Receiver effects -/

/-- Type objects in memory, by address. Only the outermost object of each type is a cell; the
children are held by value. -/
abbrev TypeMem := List Ty

/-- Calling `WithNullability(n)` through the object at address `a`: returns the memory afterwards
and the address of the returned object. `IntervalDayType` overwrites its own field and returns
itself (`types/interval_day_type.go:21-24`); every other kind allocates a copy (see
`Ty.withNullability` for the citations). -/
def withNullabilityAt (mem : TypeMem) (a : Nat) (n : Nullability) : Res (TypeMem × Nat) :=
  match mem[a]? with
  | none => .panic
  | some (.prec .intervalDay m v p) =>
      .ok (mem.set a ((Ty.prec .intervalDay m v p).withNullability n), a)
  | some t => .ok (mem ++ [t.withNullability n], mem.length)

end Verif
