import Verif.Model.TestCase
import Verif.Spec.DayInterval
import Verif.Spec.WithType
/-!
# Specification vocabulary: what the texts of a test file mean
-/

namespace Verif

/-- The text is an integer in decimal notation, with or without a sign. -/
def WritesInt (s : Bytes) (i : ℤ) : Prop :=
  ∃ ds, IsNumber ds ∧
    (((s = ds ∨ s = 43 :: ds) ∧ i = decimal ds) ∨ (s = 45 :: ds ∧ i = -(decimal ds : ℤ)))

/-- The integer belongs to the integer type. -/
def Prim.Holds : Prim → ℤ → Prop
  | .i8, i => -128 ≤ i ∧ i ≤ 127
  | .i16, i => -32768 ≤ i ∧ i ≤ 32767
  | .i32, i => IsInt32 i
  | .i64, i => IsInt64 i
  | _, _ => False

/-- The number of values of an integer type. -/
def Prim.span : Prim → ℤ
  | .i8 => 2 ^ 8
  | .i16 => 2 ^ 16
  | .i32 => 2 ^ 32
  | _ => 2 ^ 64

/-- The integer a literal stands for. -/
def Lit.integer : Lit → Option ℤ
  | .prim (.int8 i) (.prim .i8 ..) => some i.toInt
  | .prim (.int16 i) (.prim .i16 ..) => some i.toInt
  | .prim (.int32 i) (.prim .i32 ..) => some i.toInt
  | .prim (.int64 i) (.prim .i64 ..) => some i.toInt
  | _ => none

/-- Nullable when marked with `?`, otherwise required. -/
def mark (isnull : Bool) : Nullability := if isnull then 1 else 2

/-- The type a type expression of a test file means. -/
def TcType.Means : TcType → Ty → Prop
  | .prim k q, t => t = .prim k (mark q) 0
  | .decimal q none, t => t = .decimal (mark q) 0 0 38
  | .decimal q (some (p, s)), t =>
      ∃ p' s' : Int32, WritesInt p p'.toInt ∧ WritesInt s s'.toInt ∧ t = .decimal (mark q) 0 s' p'
  | .prec k q none, t => k = .intervalDay ∧ t = .prec k (mark q) 0 0
  | .prec k q (some p), t => ∃ p' : Int32, WritesInt p p'.toInt ∧ t = .prec k (mark q) 0 p'
  | .fixed k q l, t => ∃ l' : Int32, WritesInt l l'.toInt ∧ t = .fixed k (mark q) 0 l'
  | .list q e, t => ∃ t', e.Means t' ∧ t = .list (mark q) 0 t'
  | .other, _ => False

/-- The numbers in the type expression are within 32 bits. -/
def TcType.Small : TcType → Prop
  | .decimal _ (some (p, s)) => (∀ i, WritesInt p i → IsInt32 i) ∧ ∀ i, WritesInt s i → IsInt32 i
  | .prec _ _ (some p) => ∀ i, WritesInt p i → IsInt32 i
  | .fixed _ _ l => ∀ i, WritesInt l i → IsInt32 i
  | .list _ e => e.Small
  | _ => True

/-- The type expression behind the `::` of an argument. -/
def TcArg.declared : TcArg → Option TcType
  | .null t => some t
  | .int k q _ => some (.prim k q)
  | .float k q _ => some (.prim k q)
  | .bool q _ => some (.prim .boolean q)
  | .string q _ => some (.prim .string q)
  | .decimal q ps _ => some (.decimal q ps)
  | .date q _ => some (.prim .date q)
  | .time q _ => some (.prim .time q)
  | .timestamp q _ => some (.prim .timestamp q)
  | .timestampTz q _ => some (.prim .timestampTz q)
  | .intervalYear q _ => some (.prim .intervalYear q)
  | .intervalDay q p _ => some (.prec .intervalDay q p)
  | .fixed k q l _ => some (.fixed k q l)
  | .prec k q p _ => some (.prec k q p)
  | .list q e _ => some (.list q e)
  | .enum _ => none
  | .unsupported => none

mutual
/-- The element is null, or a list with a null in it. -/
def TcElem.HasNull : TcElem → Prop
  | .lit l => l = .null
  | .list es => TcElem.SomeNull es
/-- a null occurs in one of the elements -/
def TcElem.SomeNull : List TcElem → Prop
  | [] => False
  | e :: es => e.HasNull ∨ TcElem.SomeNull es
end

/-- Day-time intervals, lists of them, lists of lists of them .. -/
def TcType.OfIntervals : TcType → Prop
  | .prec .intervalDay .. => True
  | .list _ e => e.OfIntervals
  | _ => False

/-- A list of day-time intervals with a null in it. -/
def TcArg.NullInterval : TcArg → Prop
  | .list _ e es => e.OfIntervals ∧ TcElem.SomeNull es
  | _ => False

mutual
/-- Integers in lists of lists .. as deep as the type says, none of the inner lists empty, every integer
belonging to the type. -/
def TcElem.Nested : Ty → TcElem → Prop
  | .prim k _ _, .lit (.numeric s) => ∃ i, WritesInt s i ∧ k.Holds i
  | .list _ _ t, .list es => es ≠ [] ∧ TcElem.NestedAll t es
  | _, _ => False
/-- the same for all elements -/
def TcElem.NestedAll : Ty → List TcElem → Prop
  | _, [] => True
  | t, e :: es => TcElem.Nested t e ∧ TcElem.NestedAll t es
end

mutual
/-- The literal is the one written: the same integers in the same lists, of the given type. -/
def TcElem.Is : Ty → TcElem → Lit → Prop
  | t, .lit (.numeric s), l => l.getType = .ok t ∧ ∃ i, WritesInt s i ∧ l.integer = some i
  | t, .list es, .list vs lt => lt = t ∧ ∃ n v t', t = .list n v t' ∧ TcElem.AreAll t' es vs
  | _, _, _ => False
/-- the same for all elements, one by one -/
def TcElem.AreAll : Ty → List TcElem → List Lit → Prop
  | _, [], [] => True
  | t, e :: es, v :: vs => TcElem.Is t e v ∧ TcElem.AreAll t es vs
  | _, _, _ => False
end

/-- Lists of lists .. of primitive values, the inner lists required: `list<i32>` but not `list?<i32>`. -/
def TcType.InnerRequired : TcType → Prop
  | .prim .. => True
  | .list q e => q = false ∧ e.InnerRequired
  | _ => False

/-- The types whose values are written as a number or a string. -/
def TcType.Readable : TcType → Prop
  | .prim k _ => k = .i8 ∨ k = .i16 ∨ k = .i32 ∨ k = .i64 ∨ k = .fp32 ∨ k = .fp64 ∨ k = .string ∨ k = .binary
  | .decimal .. => True
  | .fixed .. => True
  | _ => False

/-- A number or a string. -/
def TcElem.IsWord : TcElem → Prop
  | .lit (.numeric _) => True
  | .lit (.string _) => True
  | _ => False

/-- A string between quotes, each quote in it doubled. -/
def quoted (s : Bytes) : Bytes :=
  39 :: (s.flatMap fun b => if b = 39 then [39, 39] else [b]) ++ [39]

end Verif
