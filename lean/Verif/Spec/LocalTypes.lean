import Verif.Model.LocalTypes
/-!
# Vocabulary for type names
-/

namespace Verif

/-- Simple, fixed-length and decimal types. -/
def Ty.IsPlain : Ty → Prop
  | .prim .. | .fixed .. | .decimal .. => True
  | _ => False

/-- The type with the given nullability and without variation. -/
def Ty.bare (n : Nullability) : Ty → Ty
  | .prim k _ _ => .prim k n 0
  | .fixed k _ _ l => .fixed k n 0 l
  | .decimal _ _ s p => .decimal n 0 s p
  | t => t

/-- The names under which a dialect may list a type, long name first. -/
def Ty.spellings : Ty → List String
  | .prim .boolean _ _ => ["boolean", "bool"]
  | .prim .i8 _ _ => ["i8"]
  | .prim .i16 _ _ => ["i16"]
  | .prim .i32 _ _ => ["i32"]
  | .prim .i64 _ _ => ["i64"]
  | .prim .fp32 _ _ => ["fp32"]
  | .prim .fp64 _ _ => ["fp64"]
  | .prim .string _ _ => ["string", "str"]
  | .prim .binary _ _ => ["binary", "vbin"]
  | .prim .timestamp _ _ => ["timestamp", "ts"]
  | .prim .date _ _ => ["date"]
  | .prim .time _ _ => ["time"]
  | .prim .timestampTz _ _ => ["timestamp_tz", "tstz"]
  | .prim .intervalYear _ _ => ["interval_year", "iyear"]
  | .prim .uuid _ _ => ["uuid"]
  | .fixed .fixedChar _ _ _ => ["fixedchar", "fchar"]
  | .fixed .varChar _ _ _ => ["varchar", "vchar"]
  | .fixed .fixedBinary _ _ _ => ["fixedbinary", "fbin"]
  | .decimal .. => ["decimal", "dec"]
  | _ => []

/-- The parameters of a type in decimal notation, precision before scale. -/
def Ty.writtenParams : Ty → Option String
  | .fixed _ _ _ l => some (toString l.toInt)
  | .decimal _ _ s p => some (toString p.toInt ++ "," ++ toString s.toInt)
  | _ => none

/-- The parameters in an enclosure; nothing if there are none. -/
def enclose (opening closing : String) : Option String → String
  | none => ""
  | some params => opening ++ params ++ closing

/-- A local name that can be told apart from its parameters: it does not end in `?`, it does not look
like a name with parameters, and if the type takes parameters it has no opening parenthesis at all. -/
def GoodLocalName (t : Ty) (l : String) : Prop :=
  l.toList.getLast? ≠ some '?' ∧ ¬ ('(' ∈ l.toList ∧ l.toList.getLast? = some ')') ∧
    (t.writtenParams ≠ none → '(' ∉ l.toList)

/-- The type names a dialect may list. -/
def knownTypeNames : List String :=
  ["boolean", "bool", "i8", "i16", "i32", "i64", "fp32", "fp64", "string", "str", "binary", "vbin",
    "timestamp", "ts", "timestamp_tz", "tstz", "date", "time", "interval_year", "iyear", "uuid", "u!",
    "fixedchar", "fchar", "varchar", "vchar", "fixedbinary", "fbin", "decimal", "dec",
    "interval_day", "iday", "precision_time", "pt", "precision_timestamp", "pts",
    "precision_timestamp_tz", "ptstz"]

/-- The nullability a type string says: only `nullable` is marked. -/
def markedNullability (n : Nullability) : Nullability :=
  if n = NullabilityNullable then NullabilityNullable else NullabilityRequired

end Verif
