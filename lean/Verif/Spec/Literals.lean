import Verif.Model.Literals
import Verif.Spec.Types
/-!
# Specification vocabulary for literals
-/

namespace Verif

/-- Nullability is stated: nullable or required. -/
def Stated (n : Nullability) : Prop := n = NullabilityNullable ∨ n = NullabilityRequired

mutual
/-- The same literal with every type inside it taken up to value/pointer representation
(`Ty.erase`). Two literals are *the same* when these are identical. -/
def Lit.erase : Lit → Lit
  | .nil => .nil
  | .null t => .null t.erase
  | .prim v t => .prim v t.erase
  | .bytes k b t => .bytes k b t.erase
  | .struct fs t => .struct (Lit.eraseList fs) t.erase
  | .list vs t => .list (Lit.eraseList vs) t.erase
  | .map kvs t => .map (KeyValue.eraseList kvs) t.erase
  | .proto v t => .proto v t.erase
  | .intervalYearToMonth y m n => .intervalYearToMonth y m n
  | .intervalCompound y m d s ss p n => .intervalCompound y m d s ss p n
/-- ... for each literal of a list -/
def Lit.eraseList : List Lit → List Lit
  | [] => []
  | l :: ls => l.erase :: Lit.eraseList ls
/-- ... for each entry of a map -/
def KeyValue.eraseList : List KeyValue → List KeyValue
  | [] => []
  | .mk k v :: kvs => .mk k.erase v.erase :: KeyValue.eraseList kvs
end

/-- The same value, nullability, variation reference and type, at every depth. -/
def Lit.Same (a b : Lit) : Prop := a.erase = b.erase

/-- The type says what the primitive value is, and a fixed_char type has the value's length. -/
def PVal.Fits : PVal → Ty → Prop
  | .bool _, .prim .boolean n _ => Stated n
  | .int8 _, .prim .i8 n _ => Stated n
  | .int16 _, .prim .i16 n _ => Stated n
  | .int32 _, .prim .i32 n _ => Stated n
  | .int64 _, .prim .i64 n _ => Stated n
  | .float32 _, .prim .fp32 n _ => Stated n
  | .float64 _, .prim .fp64 n _ => Stated n
  | .string _, .prim .string n _ => Stated n
  | .timestamp _, .prim .timestamp n _ => Stated n
  | .date _, .prim .date n _ => Stated n
  | .time _, .prim .time n _ => Stated n
  | .timestampTz _, .prim .timestampTz n _ => Stated n
  | .fixedChar s, .fixed .fixedChar n _ len => Stated n ∧ len.toInt = s.length
  | _, _ => False

/-- The same for byte-slice values. -/
def BKind.Fits : BKind → List UInt8 → Ty → Prop
  | .binary, _, .prim .binary n _ => Stated n
  | .uuid, _, .prim .uuid n _ => Stated n
  | .fixedBinary, b, .fixed .fixedBinary n _ len => Stated n ∧ len.toInt = b.length
  | _, _, _ => False

/-- The same for values held as messages: day intervals state the type's precision (or, without a
stated precision, the type has the default 6); precision times are not negative and have no
variation. Year-month intervals are *not* among them (see `C12_negation_interval_year`). -/
def ProtoVal.Fits : ProtoVal → Ty → Prop
  | .udt _, .udt n _ _ ps => Stated n ∧ TParam.PrecisionsOkList ps
  | .intervalDayToSecond d, .prec .intervalDay n _ p =>
      Stated n ∧ ValidPrecision p ∧
        ((d.mode = .precision p) ∨ ((∀ q, d.mode ≠ .precision q) ∧ p = 6))
  | .string _, .fixed .varChar n _ _ => Stated n
  | .bytes _, .decimal n _ _ _ => Stated n
  | .int64 i, .prec k n v p =>
      k ≠ .intervalDay ∧ Stated n ∧ ValidPrecision p ∧ v = 0 ∧ 0 ≤ i.toInt
  | _, _ => False

mutual
/-- The literal's recorded type agrees with its value at every depth (element types of lists and
maps are those of the first element, struct types list the fields' types), nullability is stated,
and none of the lossy corner cases listed in the individual clauses occurs. -/
def Lit.Faithful : Lit → Prop
  | .nil => False
  | .null t => t.PrecisionsOk
  | .prim v t => v.Fits t
  | .bytes k b t => k.Fits b t
  | .struct fs t => Lit.FaithfulList fs ∧
      ∃ n v ts us, t = .struct n v ts ∧ Stated n ∧ fs.map Lit.getType = us.map Res.ok ∧
        Ty.eraseList ts = Ty.eraseList us
  | .list vs t => Lit.FaithfulList vs ∧
      ∃ n v e, t = .list n v e ∧ Stated n ∧
        match vs with
        | [] => e.PrecisionsOk
        | x :: _ => ∃ u, x.getType = .ok u ∧ e.Same u
  | .map kvs t => KeyValue.FaithfulList kvs ∧
      ∃ n v k e, t = .map n v k e ∧ Stated n ∧
        match kvs with
        | [] => k.PrecisionsOk ∧ e.PrecisionsOk
        | .mk x y :: _ => ∃ u w, x.getType = .ok u ∧ y.getType = .ok w ∧ k.Same u ∧ e.Same w
  | .proto v t => v.Fits t
  | .intervalYearToMonth _ _ n => Stated n
  | .intervalCompound _ _ d s ss p n =>
      Stated n ∧ ValidPrecision p ∧ (d = 0 → s = 0 → ss = 0 → p = 0)
/-- ... for each literal of a list -/
def Lit.FaithfulList : List Lit → Prop
  | [] => True
  | l :: ls => l.Faithful ∧ Lit.FaithfulList ls
/-- ... for each entry of a map -/
def KeyValue.FaithfulList : List KeyValue → Prop
  | [] => True
  | .mk k v :: kvs => k.Faithful ∧ v.Faithful ∧ KeyValue.FaithfulList kvs
end

/-! ## What a message says -/

/-- Name of the oneof field of the literal message that the specification provides for a literal
with this value. -/
def Lit.kindName : Lit → String
  | .nil => ""
  | .null _ => "null"
  | .prim (.bool _) _ => "boolean" | .prim (.int8 _) _ => "i8" | .prim (.int16 _) _ => "i16"
  | .prim (.int32 _) _ => "i32" | .prim (.int64 _) _ => "i64" | .prim (.float32 _) _ => "fp32"
  | .prim (.float64 _) _ => "fp64" | .prim (.string _) _ => "string"
  | .prim (.timestamp _) _ => "timestamp" | .prim (.date _) _ => "date"
  | .prim (.time _) _ => "time" | .prim (.fixedChar _) _ => "fixed_char"
  | .prim (.timestampTz _) _ => "timestamp_tz" | .prim .other _ => ""
  | .bytes .binary _ _ => "binary" | .bytes .fixedBinary _ _ => "fixed_binary"
  | .bytes .uuid _ _ => "uuid"
  | .struct _ _ => "struct"
  | .list [] _ => "empty_list" | .list _ _ => "list"
  | .map [] _ => "empty_map" | .map _ _ => "map"
  | .proto _ (.udt ..) => "user_defined"
  | .proto _ (.prim .intervalYear _ _) => "interval_year_to_month"
  | .proto _ (.prec .intervalDay _ _ _) => "interval_day_to_second"
  | .proto _ (.fixed .varChar _ _ _) => "var_char"
  | .proto _ (.decimal ..) => "decimal"
  | .proto _ (.prec .precisionTime _ _ _) => "precision_time"
  | .proto _ (.prec .precisionTimestamp _ _ _) => "precision_timestamp"
  | .proto _ (.prec .precisionTimestampTz _ _ _) => "precision_timestamp_tz"
  | .proto _ _ => ""
  | .intervalYearToMonth .. => "interval_year_to_month"
  | .intervalCompound .. => "interval_compound"

/-- Name of the oneof field that is set in a literal message. -/
def PLitKind.kindName : PLitKind → String
  | .unset => ""
  | .boolean _ => "boolean" | .i8 _ => "i8" | .i16 _ => "i16" | .i32 _ => "i32" | .i64 _ => "i64"
  | .fp32 _ => "fp32" | .fp64 _ => "fp64" | .string _ => "string" | .binary _ => "binary"
  | .timestamp _ => "timestamp" | .date _ => "date" | .time _ => "time"
  | .intervalDayToSecond _ => "interval_day_to_second" | .fixedChar _ => "fixed_char"
  | .varChar _ _ => "var_char" | .fixedBinary _ => "fixed_binary" | .decimal .. => "decimal"
  | .timestampTz _ => "timestamp_tz" | .uuid _ => "uuid" | .null _ => "null"
  | .struct _ => "struct" | .map _ => "map" | .list _ => "list" | .emptyList _ => "empty_list"
  | .emptyMap _ => "empty_map" | .userDefined .. => "user_defined"
  | .precisionTime .. => "precision_time" | .precisionTimestamp .. => "precision_timestamp"
  | .precisionTimestampTz .. => "precision_timestamp_tz"
  | .intervalYearToMonth .. => "interval_year_to_month"
  | .intervalCompound .. => "interval_compound"

/-- The numbers and bytes of a literal other than its kind, nullability, variation and children:
integers by value, floats by bit pattern, strings and byte strings byte by byte, then the
parameters of the type that the message carries (length, precision and scale). -/
def Lit.payload : Lit → List Int
  | .prim (.bool b) _ => [if b then 1 else 0]
  | .prim (.int8 i) _ => [i.toInt] | .prim (.int16 i) _ => [i.toInt]
  | .prim (.int32 i) _ => [i.toInt] | .prim (.int64 i) _ => [i.toInt]
  | .prim (.float32 f) _ => [f.toNat] | .prim (.float64 f) _ => [f.toNat]
  | .prim (.timestamp i) _ => [i.toInt] | .prim (.date i) _ => [i.toInt]
  | .prim (.time i) _ => [i.toInt] | .prim (.timestampTz i) _ => [i.toInt]
  | .prim (.string s) _ => s.map (fun c => (c.toNat : Int))
  | .prim (.fixedChar s) _ => s.map (fun c => (c.toNat : Int))
  | .bytes _ b _ => b.map (fun c => (c.toNat : Int))
  | .proto (.string s) (.fixed .varChar _ _ len) =>
      (len.toUInt32.toNat : Int) :: s.map (fun c => (c.toNat : Int))
  | .proto (.bytes b) (.decimal _ _ scale precision) =>
      precision.toInt :: scale.toInt :: b.map (fun c => (c.toNat : Int))
  | .proto (.int64 i) (.prec _ _ _ p) => [p.toInt, i.toInt]
  | .proto (.intervalYearToMonth y m) (.prim .intervalYear _ _) => [y.toInt, m.toInt]
  | .proto (.intervalDayToSecond d) (.prec .intervalDay _ _ _) =>
      [d.days.toInt, d.seconds.toInt, d.subseconds.toInt]
  | .proto (.udt _) (.udt _ _ ref _) => [ref.toNat]
  | .intervalYearToMonth y m _ => [y.toInt, m.toInt]
  | .intervalCompound y m d s ss _ _ => [y.toInt, m.toInt, d.toInt, s.toInt, ss.toInt]
  | _ => []

/-- The same reading of a message. -/
def PLitKind.payload : PLitKind → List Int
  | .boolean b => [if b then 1 else 0]
  | .i8 i => [i.toInt] | .i16 i => [i.toInt] | .i32 i => [i.toInt] | .i64 i => [i.toInt]
  | .fp32 f => [f.toNat] | .fp64 f => [f.toNat]
  | .timestamp i => [i.toInt] | .date i => [i.toInt] | .time i => [i.toInt]
  | .timestampTz i => [i.toInt]
  | .string s => s.map (fun c => (c.toNat : Int))
  | .fixedChar s => s.map (fun c => (c.toNat : Int))
  | .binary s => s.map (fun c => (c.toNat : Int))
  | .fixedBinary s => s.map (fun c => (c.toNat : Int))
  | .uuid s => s.map (fun c => (c.toNat : Int))
  | .varChar s len => (len.toNat : Int) :: s.map (fun c => (c.toNat : Int))
  | .decimal b p s => p.toInt :: s.toInt :: b.map (fun c => (c.toNat : Int))
  | .precisionTime p i => [p.toInt, i.toInt] | .precisionTimestamp p i => [p.toInt, i.toInt]
  | .precisionTimestampTz p i => [p.toInt, i.toInt]
  | .intervalYearToMonth y m => [y.toInt, m.toInt]
  | .intervalDayToSecond d => [d.days.toInt, d.seconds.toInt, d.subseconds.toInt]
  | .userDefined ref _ _ => [ref.toNat]
  | .intervalCompound ym ds =>
      let (y, m) := ym.getD (0, 0)
      let d := ds.getD ⟨0, 0, .unset, 0⟩
      [y.toInt, m.toInt, d.days.toInt, d.seconds.toInt, d.subseconds.toInt]
  | _ => []

/-- The literals directly inside a literal, in order (keys and values alternating for maps). -/
def Lit.children : Lit → List Lit
  | .struct fs _ => fs
  | .list vs _ => vs
  | .map kvs _ => kvs.flatMap (fun | .mk k v => [k, v])
  | _ => []

/-- The literal messages directly inside a message (a user-defined struct is not looked into). -/
def PLitKind.children : PLitKind → List PLit
  | .struct fs => fs
  | .list vs => vs
  | .map kvs => kvs.flatMap (fun | .mk k v => [k, v])
  | _ => []

end Verif
