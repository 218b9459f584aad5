import Verif.Model.Literals
/-!
# Reference segments and mask expressions

Models `expr/field_reference.go:42-543`. Simplification throughout: a message whose oneof wrapper is
set but whose inner message pointer is nil, and nil entries of repeated fields, are not represented
(decoding protobuf bytes produces neither).
-/

namespace Verif

/-! ## Reference segments -/

/-- A value of the Go interface `ReferenceSegment` (`expr/field_reference.go:42-49`), nil included;
`child` is the field `Child`. -/
inductive Seg where
  | nil
  /-- `*MapKeyRef`, `expr/field_reference.go:102-105` -/
  | mapKey (key : Lit) (child : Seg)
  /-- `*StructFieldRef`, `expr/field_reference.go:173-176` -/
  | structField (field : Int32) (child : Seg)
  /-- `*ListElementRef`, `expr/field_reference.go:247-250` -/
  | listElement (offset : Int32) (child : Seg)

/-- A `*proto.Expression_ReferenceSegment` (cases of `expr/field_reference.go:52-72`). -/
inductive PSeg where
  | nil
  /-- the `ReferenceType` oneof is not set -/
  | unset
  | mapKey (key : PLit) (child : PSeg)
  | structField (field : Int32) (child : PSeg)
  | listElement (offset : Int32) (child : PSeg)

/-- `RefSegmentFromProto`, `expr/field_reference.go:51-75` -/
def segFromProto : PSeg → Res Seg
  | .nil => .ok .nil
  | .unset => .ok .nil
  | .mapKey k c => literalFromProto k >>= fun k => segFromProto c >>= fun c => .ok (.mapKey k c)
  | .structField f c => segFromProto c >>= fun c => .ok (.structField f c)
  | .listElement o c => segFromProto c >>= fun c => .ok (.listElement o c)

mutual
/-- The `ToProto` methods: `expr/field_reference.go:117-131,206-220,274-288`; a call on nil
panics. -/
def segToProto : Seg → Res PSeg
  | .nil => .panic
  | .mapKey k c => segChildToProto c >>= fun c => literalToProto k >>= fun k => .ok (.mapKey k c)
  | .structField f c => segChildToProto c >>= fun c => .ok (.structField f c)
  | .listElement o c => segChildToProto c >>= fun c => .ok (.listElement o c)
/-- `if r.Child != nil { c = r.Child.ToProto() }`, `expr/field_reference.go:118-121,207-210,
275-278` -/
def segChildToProto : Seg → Res PSeg
  | .nil => .ok .nil
  | .mapKey k c => segChildToProto c >>= fun c => literalToProto k >>= fun k => .ok (.mapKey k c)
  | .structField f c => segChildToProto c >>= fun c => .ok (.structField f c)
  | .listElement o c => segChildToProto c >>= fun c => .ok (.listElement o c)
end

/-- The negation of the test `r.Child != nil`, `expr/field_reference.go:143,199,268` -/
def Seg.isNil : Seg → Bool
  | .nil => true
  | _ => false

/-- The `GetType` methods: `MapKeyRef` `expr/field_reference.go:133-148`, `StructFieldRef`
189-204, `ListElementRef` 262-272. A call on nil panics. -/
def Seg.getType : Seg → Ty → Res Ty
  | .nil, _ => .panic
  | .mapKey key child, parent =>
      match parent with
      | .map _ _ k v =>
          key.getType >>= fun kt => kt.equals k >>= fun b =>
          if !b then .err
          else if child.isNil then .ok v else child.getType v
      | _ => .err
  | .structField field child, parent =>
      match parent with
      | .struct _ _ ts =>
          if field < 0 ∨ (ts.length : Int) ≤ field.toInt then .err
          else Res.index ts field.toInt >>= fun t =>
            if child.isNil then .ok t else child.getType t
      | _ => .err
  | .listElement _ child, parent =>
      match parent with
      | .list _ _ t => if child.isNil then .ok t else child.getType t
      | _ => .err

/-! ## Mask expressions -/

/-- One `ListSelectItem` message (`expr/field_reference.go:369-374`). -/
inductive PMListItem where
  | unset
  | item (field : Int32)
  | slice (start end_ : Int32)
  deriving DecidableEq, Repr

/-- The `Select` oneof of a map selection (`expr/field_reference.go:386-393`). -/
inductive PMMapKey where
  | unset
  | key (k : String)
  | expression (e : String)
  deriving DecidableEq, Repr

mutual
/-- A `*proto.Expression_MaskExpression_Select` (cases of `expr/field_reference.go:356-396`). -/
inductive PMSelect where
  | nil
  | unset
  | struct (items : List PMItem)
  | list (selection : List PMListItem) (child : PMSelect)
  | map (key : PMMapKey) (child : PMSelect)
/-- A `StructItem` message (`expr/field_reference.go:346-350,359-363`). -/
inductive PMItem where
  | mk (field : Int32) (child : PMSelect)
end

/-- `MaskListSelectItem` interface value (`expr/field_reference.go:468-498`), nil included. -/
inductive MListItem where
  | nil
  | element (field : Int32)
  | slice (start end_ : Int32)
  deriving DecidableEq, Repr

mutual
/-- `MaskSelect` interface value (`expr/field_reference.go:399-401`), nil included:
`MaskStructSelect` 403, `*MaskListSelect` 442-445, `*MaskMapSelect` 507-511 (`isExpr` is
`kind == MapSelectExpr`). -/
inductive MSelect where
  | nil
  | struct (items : List MItem)
  | list (selection : List MListItem) (child : MSelect)
  | map (isExpr : Bool) (key : String) (child : MSelect)
/-- `MaskStructItem`, `expr/field_reference.go:423-426` -/
inductive MItem where
  | mk (field : Int32) (child : MSelect)
end

/-- `expr/field_reference.go:369-374`: an unset item stays nil -/
def listItemFromProto : PMListItem → MListItem
  | .unset => .nil
  | .item f => .element f
  | .slice s e => .slice s e

/-- `expr/field_reference.go:386-393`: the zero value of `kind` is `MapSelectKey` -/
def mapKeyFromProto : PMMapKey → Bool × String
  | .unset => (false, "")
  | .expression e => (true, e)
  | .key k => (false, k)

mutual
/-- `maskSelectFromProto`, `expr/field_reference.go:355-397`; nil argument: `p.Type` panics. -/
def maskSelectFromProto : PMSelect → Res MSelect
  | .nil => .panic
  | .unset => .panic
  | .struct items => maskItemsFromProto items >>= fun is => .ok (.struct is)
  | .list sel child =>
      maskSelectFromProto child >>= fun c => .ok (.list (sel.map listItemFromProto) c)
  | .map key child =>
      maskChildFromProto child >>= fun c =>
      .ok (.map (mapKeyFromProto key).1 (mapKeyFromProto key).2 c)
/-- `if item.Child != nil { child = maskSelectFromProto(item.Child) }`,
`expr/field_reference.go:348-350,361-363,382-384` -/
def maskChildFromProto : PMSelect → Res MSelect
  | .nil => .ok .nil
  | .unset => .panic
  | .struct items => maskItemsFromProto items >>= fun is => .ok (.struct is)
  | .list sel child =>
      maskSelectFromProto child >>= fun c => .ok (.list (sel.map listItemFromProto) c)
  | .map key child =>
      maskChildFromProto child >>= fun c =>
      .ok (.map (mapKeyFromProto key).1 (mapKeyFromProto key).2 c)
/-- the item loop, `expr/field_reference.go:346-351,359-364` -/
def maskItemsFromProto : List PMItem → Res (List MItem)
  | [] => .ok []
  | .mk f c :: is =>
      maskChildFromProto c >>= fun c => maskItemsFromProto is >>= fun is => .ok (.mk f c :: is)
end

/-- `MaskListSelectItem.ToProto`, `expr/field_reference.go:478-484,492-498` -/
def listItemToProto : MListItem → Res PMListItem
  | .nil => .panic
  | .element f => .ok (.item f)
  | .slice s e => .ok (.slice s e)

/-- `expr/field_reference.go:527-539` -/
def mapKeyToProto (isExpr : Bool) (key : String) : PMMapKey :=
  if isExpr then .expression key else .key key

mutual
/-- The `ToProto` methods of `MaskStructSelect` (`expr/field_reference.go:405-421`),
`*MaskListSelect` (447-461, the child is not checked for nil) and `*MaskMapSelect` (520-543,
likewise). A call on nil panics. -/
def maskSelectToProto : MSelect → Res PMSelect
  | .nil => .panic
  | .struct items => maskItemsToProto items >>= fun is => .ok (.struct is)
  | .list sel child =>
      Res.mapL listItemToProto sel >>= fun sel =>
      maskSelectToProto child >>= fun c => .ok (.list sel c)
  | .map isExpr key child =>
      maskSelectToProto child >>= fun c => .ok (.map (mapKeyToProto isExpr key) c)
/-- `if m.child != nil { childProto = m.child.ToProto() }`, `expr/field_reference.go:431-434` -/
def maskChildToProto : MSelect → Res PMSelect
  | .nil => .ok .nil
  | .struct items => maskItemsToProto items >>= fun is => .ok (.struct is)
  | .list sel child =>
      Res.mapL listItemToProto sel >>= fun sel =>
      maskSelectToProto child >>= fun c => .ok (.list sel c)
  | .map isExpr key child =>
      maskSelectToProto child >>= fun c => .ok (.map (mapKeyToProto isExpr key) c)
/-- the item loop, `expr/field_reference.go:406-409`, with `MaskStructItem.ToProto` 430-440 -/
def maskItemsToProto : List MItem → Res (List PMItem)
  | [] => .ok []
  | .mk f c :: is =>
      maskChildToProto c >>= fun c => maskItemsToProto is >>= fun is => .ok (.mk f c :: is)
end

/-- `*proto.Expression_MaskExpression` (`expr/field_reference.go:330-333,344-352`): `none` is a nil
`Select` message. -/
structure PMask where
  select : Option (List PMItem)
  maintainSingular : Bool

/-- `MaskExpression`, `expr/field_reference.go:323-326` -/
structure Mask where
  sel : List MItem
  maintainSingular : Bool

/-- `MaskExpressionFromProto`, `expr/field_reference.go:344-353`; a nil `Select` panics -/
def maskFromProto (p : PMask) : Res Mask :=
  match p.select with
  | none => .panic
  | some items => maskItemsFromProto items >>= fun sel => .ok ⟨sel, p.maintainSingular⟩

/-- `MaskExpression.ToProto`, `expr/field_reference.go:329-334` -/
def maskToProto (m : Mask) : Res PMask :=
  maskItemsToProto m.sel >>= fun items => .ok ⟨some items, m.maintainSingular⟩

end Verif
