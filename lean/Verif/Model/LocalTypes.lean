import Verif.Model.Time
import Verif.Model.TypeNames
import Verif.Model.FuncTypes
import Verif.Model.GoMap
/-!
# Type names and local type registries

Models `functions/types.go`, the name tables of `types/types.go:44-155` and the `String`,
`ShortString`, `ParameterString` and `BaseString` methods of the types.

Go strings are Lean strings; the functions of package `strings` used here only look at ASCII
characters, so working on characters instead of bytes changes nothing. `fmt.Sprintf("%d")` and
`strconv.ParseInt` (external) are `intText` and `atoi` of `Model/Time`.
-/

namespace Verif

/-- `fmt.Sprintf("%d", i)` (external) as characters -/
def intChars (i : Int) : List Char := (intText i).map fun b => Char.ofNat b.toNat

/-- `fmt.Sprintf("%d", i)` (external) -/
def intString (i : Int) : String := String.ofList (intChars i)

/-- a character as a byte; characters outside ASCII are bytes that are no digits -/
def charByte (c : Char) : UInt8 := if c.toNat < 128 then UInt8.ofNat c.toNat else 255

/-- `strconv.ParseInt(p, 10, 32)` and the conversion to int32, `functions/types.go:119-123`
(`ParseInt` is external: like `Atoi`, but the value must fit 32 bits) -/
def parseInt32 (s : List Char) : Res Int32 :=
  atoi (s.map charByte) >>= fun v =>
  if v < -2147483648 ∨ v > 2147483647 then .err else .ok (Int32.ofInt v)

/-- `strings.Split(s, sep)` for a one-character separator (external) -/
def splitChar (sep : Char) : List Char → List (List Char)
  | [] => [[]]
  | c :: cs =>
      if c = sep then [] :: splitChar sep cs
      else match splitChar sep cs with
        | [] => [[c]]
        | p :: ps => (c :: p) :: ps

/-! ## Names of types -/

/-- the names of the primitive types: `TypeName` constants `types/types.go:46-63`, the keys of
`simpleTypeNameMap` `types/types.go:76-93`, and the values of `typeNames` `types/types.go:813-828` -/
def Prim.longName : Prim → String
  | .boolean => "boolean"
  | .i8 => "i8"
  | .i16 => "i16"
  | .i32 => "i32"
  | .i64 => "i64"
  | .fp32 => "fp32"
  | .fp64 => "fp64"
  | .string => "string"
  | .binary => "binary"
  | .timestamp => "timestamp"
  | .date => "date"
  | .time => "time"
  | .timestampTz => "timestamp_tz"
  | .intervalYear => "interval_year"
  | .uuid => "uuid"

/-- `types/types.go:66-68,95-99,830-832` -/
def Fixed.longName : Fixed → String
  | .fixedChar => "fixedchar"
  | .varChar => "varchar"
  | .fixedBinary => "fixedbinary"

/-- `types/types.go:60,70-72,833-835` -/
def Prec.longName : Prec → String
  | .intervalDay => "interval_day"
  | .precisionTime => "precision_time"
  | .precisionTimestamp => "precision_timestamp"
  | .precisionTimestampTz => "precision_timestamp_tz"

/-- `ShortString` methods, `types/types.go:642-646,907-913,1030-1033,1110,1188,1325,1393,1456,1676`,
`types/interval_day_type.go:51`, `types/interval_compound_type.go:73`,
`types/interval_year_month_type.go:57`, `types/precison_timestamp_types.go:130-132,213-215,286-288` -/
def Ty.shortString : Ty → String
  | .prim k _ _ => k.shortString
  | .fixed k _ _ _ => Single.shortString (.fixed k)
  | .decimal .. => "dec"
  | .prec k _ _ _ => Single.shortString (.prec k)
  | .intervalCompound .. => "icompound"
  | .intervalYearToMonth .. => "iyear"
  | .enum .. => "req"
  | .struct .. => "struct"
  | .func .. => "func"
  | .list .. => "list"
  | .map .. => "map"
  | .udt .. => ""

mutual
/-- The pieces that the `String` methods write one after the other,
`types/types.go:597-599,915-921,1035-1039,1111-1114,1190-1203,1327-1342,1395-1397,1458-1460,1678-1680`,
`types/interval_day_type.go:53-56`, `types/interval_compound_type.go:74-76`,
`types/interval_year_month_type.go:58-60`, `types/precison_timestamp_types.go:133-136,187-190,290-293` -/
def Ty.pieces : Ty → List String
  | .prim k n _ => [k.longName, strNullable n]
  | .fixed k n _ l => [k.longName, strNullable n, "<", intString l.toInt, ">"]
  | .decimal n _ s p => ["decimal", strNullable n, "<", intString p.toInt, ",", intString s.toInt, ">"]
  | .prec k n _ p => [k.longName, strNullable n, "<", intString p.toInt, ">"]
  | .intervalCompound _ n _ p => ["interval_compound", strNullable n, "<", intString p.toInt, ">"]
  | .intervalYearToMonth n _ => ["interval_year", strNullable n]
  | .enum _ _ _ name _ => [name]
  | .struct n _ ts => ["struct", strNullable n, "<"] ++ Ty.piecesList ts ++ [">"]
  | .func n ps r => ["func", strNullable n, "<"] ++ Ty.piecesList ps ++ [" -> "] ++ r.pieces ++ [">"]
  | .list n _ t => ["list", strNullable n, "<"] ++ t.pieces ++ [">"]
  | .map n _ k v => ["map", strNullable n, "<"] ++ k.pieces ++ [", "] ++ v.pieces ++ [">"]
  | .udt .. => ["user_defined_type"]
/-- the loops `types/types.go:1195-1200,1207-1212,1332-1337` -/
def Ty.piecesList : List Ty → List String
  | [] => []
  | t :: ts => t.pieces ++ Ty.piecesRest ts
/-- the iterations of the same loops after the first, `types/types.go:1195-1200,1207-1212,1332-1337` -/
def Ty.piecesRest : List Ty → List String
  | [] => []
  | t :: ts => ", " :: t.pieces ++ Ty.piecesRest ts
end

/-- what a `strings.Builder` holds after the writes -/
def joined (pieces : List String) : String := pieces.foldr (· ++ ·) ""

/-- `String` methods, see `Ty.pieces` -/
def Ty.string (t : Ty) : String := joined t.pieces

/-- `ParameterString` of the types that implement `CompositeType` (`types/types.go:495-504`), `none` for
the others: `types/types.go:1041-1043,1116-1118,1205-1214,1399-1401,1462-1464`,
`types/interval_day_type.go:58-60`, `types/precison_timestamp_types.go:138-140,295-297` (the
`PrecisionTimestampTzType` inherits the method of the embedded type) -/
def Ty.parameterString : Ty → Option String
  | .fixed _ _ _ l => some (intString l.toInt)
  | .decimal _ _ s p => some (intString p.toInt ++ "," ++ intString s.toInt)
  | .prec _ _ _ p => some (intString p.toInt)
  | .struct _ _ ts => some (joined (Ty.piecesList ts))
  | .list _ _ t => some t.string
  | .map _ _ k v => some (k.string ++ ", " ++ v.string)
  | _ => none

/-- `getLongName`, `functions/types.go:150-156`, with the `BaseString` methods
`types/types.go:1045-1048,1120-1122,1216-1218,1403-1405,1466-1468`, `types/interval_day_type.go:62-64`,
`types/precison_timestamp_types.go:142-144,217-219,299-301` -/
def Ty.registryName : Ty → String
  | .fixed k _ _ _ => k.longName
  | .decimal .. => "decimal"
  | .prec k _ _ _ => k.longName
  | .struct .. => "struct"
  | .list .. => "list"
  | .map .. => "map"
  | t => t.string

/-! ## The table of type names -/

/-- `simpleTypeNameMap`, `fixedTypeNameMap` and the further entries of `GetTypeNameToTypeMap`,
`types/types.go:76-99,141-155`; the values are zero values -/
def longTypeNames : List (String × Ty) :=
  [("i8", .prim .i8 0 0), ("i16", .prim .i16 0 0), ("i32", .prim .i32 0 0), ("i64", .prim .i64 0 0),
   ("fp32", .prim .fp32 0 0), ("fp64", .prim .fp64 0 0), ("string", .prim .string 0 0),
   ("binary", .prim .binary 0 0), ("boolean", .prim .boolean 0 0), ("date", .prim .date 0 0),
   ("time", .prim .time 0 0), ("timestamp", .prim .timestamp 0 0),
   ("timestamp_tz", .prim .timestampTz 0 0), ("interval_year", .prim .intervalYear 0 0),
   ("uuid", .prim .uuid 0 0), ("u!", .udt 0 0 0 []),
   ("fixedbinary", .fixed .fixedBinary 0 0 0), ("fixedchar", .fixed .fixedChar 0 0 0),
   ("varchar", .fixed .varChar 0 0 0),
   ("decimal", .decimal 0 0 0 0), ("interval_day", .prec .intervalDay 0 0 0),
   ("precision_time", .prec .precisionTime 0 0 0),
   ("precision_timestamp", .prec .precisionTimestamp 0 0 0),
   ("precision_timestamp_tz", .prec .precisionTimestampTz 0 0 0)]

/-- `shortTypeNames` and `GetShortTypeName`, `types/types.go:101-125` -/
def getShortTypeName (name : String) : String :=
  match name with
  | "string" => "str"
  | "binary" => "vbin"
  | "boolean" => "bool"
  | "timestamp" => "ts"
  | "timestamp_tz" => "tstz"
  | "interval_year" => "iyear"
  | "interval_day" => "iday"
  | "interval_compound" => "icompound"
  | "fixedbinary" => "fbin"
  | "fixedchar" => "fchar"
  | "varchar" => "vchar"
  | "decimal" => "dec"
  | "precision_time" => "pt"
  | "precision_timestamp" => "pts"
  | "precision_timestamp_tz" => "ptstz"
  | n => n

/-- `nameToTypeMap` after `initTypeMaps`, `functions/types.go:22-35`, as a lookup: the long names and
the short names that differ from them. (No short name is the long name of another type, so the order
in which the entries are added does not matter.) -/
def nameToType (name : String) : Option Ty :=
  (longTypeNames.find? fun p => p.1 = name ∨ getShortTypeName p.1 = name).map Prod.snd

/-- `getTypeFromBaseTypeName`, `functions/types.go:37-42` -/
def getTypeFromBaseTypeName (name : String) : Res Ty :=
  match nameToType name with
  | some t => .ok t
  | none => .err

/-- `isSupportedType`, `functions/types.go:45-48` -/
def isSupportedType (name : String) : Bool := (nameToType name).isSome

/-! ## Reading type strings -/

/-- the parameters, `functions/types.go:116-124` -/
def parseParameters (s : List Char) : Res (List Int32) := Res.mapL parseInt32 (splitChar ',' s)

/-- `extractTypeAndParameters`, `functions/types.go:109-126`, for the enclosures `<` `>`
(`functions/types.go:133-141`) and `(` `)` (`functions/types.go:192-198`) -/
def extractTypeAndParameters (opening closing : Char) (s : List Char) : Res (List Char × List Int32) :=
  if ¬ (opening ∈ s ∧ s.getLast? = some closing) then .ok (s, [])
  else
    parseParameters (((s.dropWhile (· ≠ opening)).drop 1).dropLast) >>= fun ps =>
    .ok (s.takeWhile (· ≠ opening), ps)

/-- `getTypeWithParameters`, `functions/types.go:82-107`. Fresh decimal and fixed-length types carry no
nullability and no variation. -/
def getTypeWithParameters (t : Ty) (ps : List Int32) : Res Ty :=
  match t with
  | .decimal .. => match ps with
      | [p, s] => .ok (.decimal 0 0 s p)
      | _ => .err
  | .fixed k _ _ _ => match ps with
      | [l] => .ok (.fixed k 0 0 l)
      | _ => .err
  | t => if ps = [] then .ok t else .err

/-- `getTypeFromTypeString`, `functions/types.go:62-80`; `types` is the lookup in the map. The value
of the returned type at the time of the return; see `typeFromString` for the effect on
`*IntervalDayType`. -/
def getTypeFromTypeString (opening closing : Char) (types : String → Option Ty) (s : String) : Res Ty :=
  extractTypeAndParameters opening closing s.toList >>= fun (base, ps) =>
  let nullable := decide (base.getLast? = some '?')
  let base := if nullable then base.dropLast else base
  match types (String.ofList base) with
  | none => .err
  | some t =>
      getTypeWithParameters t ps >>= fun t =>
      .ok (t.withNullability (if nullable then NullabilityNullable else NullabilityRequired))

/-- `GetTypeFromTypeString` of `NewTypeRegistry()`, `functions/types.go:54-60` -/
def registryTypeFromString (s : String) : Res Ty := getTypeFromTypeString '<' '>' nameToType s

/-! ## Local type registries -/

/-- `typeInfo`, `functions/types.go:143-148`; the short name is `typ.ShortString()`
(`functions/dialect.go:175`) -/
structure TypeInfo where
  typ : Ty
  localName : String
  supportedAsColumn : Bool

/-- `localTypeRegistryImpl`, `functions/types.go:165-169` -/
structure LocalTypes where
  nameToType : GoMap String Ty
  localNameToType : GoMap String Ty
  infos : GoMap String TypeInfo

/-- one iteration of the loop of `NewLocalTypeRegistry`, `functions/types.go:175-184` -/
def LocalTypes.add (r : LocalTypes) (ti : TypeInfo) : LocalTypes :=
  let short := ti.typ.shortString
  let long := ti.typ.registryName
  let n := r.nameToType.set short ti.typ
  let l := r.localNameToType.set ti.localName ti.typ
  let i := r.infos.set short ti
  if long ≠ short then ⟨n.set long ti.typ, l, i.set long ti⟩ else ⟨n, l, i⟩

/-- `NewLocalTypeRegistry`, `functions/types.go:171-190` -/
def newLocalTypes (infos : List TypeInfo) : LocalTypes :=
  infos.foldl LocalTypes.add ⟨.empty, .empty, .empty⟩

/-- `LocalizeTypeRegistry` on a fresh dialect, `functions/dialect.go:164-179`; `supported` lists the
`supported_types` (`dialectTypeInfo`, `functions/dialect.go:246-249`) in the order in which the loop
over the Go map meets them -/
def localizeTypes (supported : List (String × String × Bool)) : Res LocalTypes :=
  Res.mapL (fun (name, localName, column) =>
    getTypeFromBaseTypeName name >>= fun t => .ok ⟨t, localName, column⟩) supported >>= fun infos =>
  .ok (newLocalTypes infos)

/-- `GetTypeFromTypeString` of the local registry, `functions/types.go:200-202` -/
def LocalTypes.typeFromString (r : LocalTypes) (s : String) : Res Ty :=
  getTypeFromTypeString '<' '>' r.nameToType.get s

/-- `GetSubstraitTypeFromLocalType`, `functions/types.go:204-206` -/
def LocalTypes.fromLocal (r : LocalTypes) (s : String) : Res Ty :=
  getTypeFromTypeString '(' ')' r.localNameToType.get s

/-- `getLocalTypeString`, `functions/types.go:158-163` -/
def TypeInfo.localString (ti : TypeInfo) (t : Ty) : String :=
  match t.parameterString with
  | some ps => ti.localName ++ "(" ++ ps ++ ")"
  | none => ti.localName

/-- `GetLocalTypeFromSubstraitType`, `functions/types.go:208-215` -/
def LocalTypes.toLocal (r : LocalTypes) (t : Ty) : Res String :=
  match r.infos.get t.shortString with
  | some ti => .ok (ti.localString t)
  | none => .err

/-- `IsTypeSupportedInTables`, `functions/types.go:221-226` -/
def LocalTypes.supportedInTables (r : LocalTypes) (t : Ty) : Bool :=
  match r.infos.get t.shortString with
  | some ti => ti.supportedAsColumn
  | none => false

/-! ## Shared type objects -/

/-- What a caller of `GetTypeFromTypeString` holds: an object of its own, or the one
`*IntervalDayType` stored in `nameToTypeMap` (`types/types.go:150`), which
`getTypeWithParameters` hands out (`functions/types.go:101-106`) and whose `WithNullability` returns
the receiver (`types/interval_day_type.go:21-24`). -/
inductive TypeHandle where
  | own (t : Ty)
  | sharedIntervalDay

/-- The type a caller sees through a handle while the shared object has nullability `n`,
`types/interval_day_type.go:10-14` -/
def TypeHandle.see (n : Nullability) : TypeHandle → Ty
  | .own t => t
  | .sharedIntervalDay => .prec .intervalDay n 0 0

/-- `GetTypeFromTypeString` of the registries as an action on the shared `*IntervalDayType`:
the handle, and the nullability of the shared object afterwards, `functions/types.go:62-80` -/
def typeFromString (s : String) (n : Nullability) : Res TypeHandle × Nullability :=
  match registryTypeFromString s with
  | .ok (.prec .intervalDay m _ _) => (.ok .sharedIntervalDay, m)
  | .ok t => (.ok (.own t), n)
  | .err => (.err, n)
  | .panic => (.panic, n)

end Verif
