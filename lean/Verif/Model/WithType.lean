import Verif.Model.Literals
import Verif.Model.Decimal
import Verif.Model.Time
/-!
# Giving a literal another type

Models the `WithType` methods of `expr/literals.go`.
-/

namespace Verif

/-- `newDecimalWithType`, `expr/literals.go:700-711`: `literal.Value.([]byte)` of another value and the
conversion of fewer than 16 bytes panic; longer slices give their first 16 bytes. -/
def newDecimalWithType (v : ProtoVal) (t : Ty) (n : Nullability) (precision scale : Int32) : Res Lit :=
  match t with
  | .decimal _ _ litScale _ =>
      match v with
      | .bytes b =>
          if b.length < 16 then .panic
          else
            modifyDecimal (b.take 16) litScale.toInt precision.toInt scale.toInt
              >>= fun (b', p, s) =>
            newLiteral (.decimal b' (Int32.ofInt p) (Int32.ofInt s)) (n == NullabilityNullable)
      | _ => .panic
  | _ => .err

/-- `newVarCharWithType`, `expr/literals.go:713-721` -/
def newVarCharWithType (v : ProtoVal) (t newType : Ty) (length : Int32) : Res Lit :=
  match t with
  | .fixed .varChar .. =>
      match v with
      | .string s => if (s.length : Int) > length.toInt then .err else .ok (.proto v newType)
      | _ => .panic
  | _ => .err

/-- `newPrecisionTimeWithType`, `newPrecisionTimestampWithType`, `newPrecisionTimestampTzWithType`,
`expr/literals.go:723-745`; negative precisions have no case in the two switches and panic like those
above 9 (`types/types.go:1849-1851,1926-1928`). -/
def newTimeWithType (k : Prec) (v : ProtoVal) (t newType : Ty) (precision : Int32) : Res Lit :=
  match t with
  | .prec k' _ _ litPrecision =>
      if k' ≠ k then .err
      else
        match v with
        | .int64 i =>
            if litPrecision < 0 ∨ precision < 0 then .panic
            else
              changeTimePrecision i.toInt litPrecision.toInt.toNat precision.toInt.toNat >>= fun r =>
              .ok (.proto (.int64 (Int64.ofInt r)) newType)
        | _ => .panic
  | _ => .err

/-- `newIntervalDayWithType`, `expr/literals.go:747-772`. Simplification: the power of ten is computed
exactly and negative precisions count as 0; Go agrees when both precisions are between 0 and 9. -/
def newIntervalDayWithType (v : ProtoVal) (t newType : Ty) (precision : Int32) : Res Lit :=
  match t with
  | .prec .intervalDay .. =>
      match v with
      | .intervalDayToSecond d =>
          let r := intervalDayWithPrecision
            ⟨d.days.toInt, d.seconds.toInt, d.subseconds.toInt, d.getPrecision.toInt.toNat⟩
            precision.toInt.toNat
          .ok (.proto (.intervalDayToSecond
            ⟨Int32.ofInt r.days, Int32.ofInt r.seconds, .precision precision, Int64.ofInt r.subseconds⟩)
            newType)
      | _ => .panic
  | _ => .err

/-- The `WithType` methods: `PrimitiveLiteral` `expr/literals.go:241-252`, `NestedLiteral` 338-347,
`ByteSliceLiteral` 486-500, `ProtoLiteral` 509-525. The other literals do not have the method
(`WithTypeLiteral`, 34-37); `.err` stands for that too. -/
def Lit.withType (l : Lit) (newType : Ty) : Res Lit :=
  match l with
  | .prim (.fixedChar s) _ =>
      match newType with
      | .fixed .fixedChar .. => .ok (.prim (.fixedChar s) newType)
      | _ => .err
  | .struct vs _ =>
      match newType with
      | .list .. => .ok (.list vs newType)
      | _ => .err
  | .list vs _ =>
      match newType with
      | .list .. => .ok (.list vs newType)
      | _ => .err
  | .bytes _ b _ =>
      match newType with
      | .fixed .fixedBinary .. => .ok (.bytes .fixedBinary b newType)
      | .prim .uuid .. => .ok (.bytes .uuid b newType)
      | _ => .err
  | .proto v t =>
      match newType with
      | .decimal n _ scale precision => newDecimalWithType v t n precision scale
      | .fixed .varChar _ _ length => newVarCharWithType v t newType length
      | .prec .intervalDay _ _ precision => newIntervalDayWithType v t newType precision
      | .prec k _ _ precision => newTimeWithType k v t newType precision
      | _ => .err
  | _ => .err

end Verif
