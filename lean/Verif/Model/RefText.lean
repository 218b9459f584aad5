import Verif.Model.Expr
import Verif.Model.CaseText
/-!
# The texts of field references

Models the `String` methods of literals and of field references: `expr/literals.go:111-113,159-161,262-264,357-359,425-427,
589-591`, `expr/interval_compound_literal.go:92-94`, `expr/interval_year_to_month.go:51-53`,
`expr/field_reference.go:109-115,180-187,254-260,624-641`.
-/

namespace Verif

/-- `String` of literals: `expr/literals.go:111-113,159-161,262-264,357-359,425-427,589-591`,
`expr/interval_compound_literal.go:92-94`, `expr/interval_year_to_month.go:51-53`. Structs and lists write their values
with `%v` (external, `TcFmt.other`). -/
def Lit.string (f : TcFmt) : Lit → Res Bytes
  | .null t => .ok ([110, 117, 108, 108, 40] ++ utf8 t.string ++ [41])
  | .struct vs t => .ok (utf8 t.string ++ 40 :: f.other (.struct vs t) ++ [41])
  | .list vs t => .ok (utf8 t.string ++ 40 :: f.other (.list vs t) ++ [41])
  | l => l.getType >>= fun t => l.valueString f >>= fun v => .ok (utf8 t.string ++ 40 :: v ++ [41])

mutual
/-- `String` of reference segments, `expr/field_reference.go:109-115,180-187,254-260`; a call on nil panics -/
def Seg.string (f : TcFmt) : Seg → Res Bytes
  | .nil => .panic
  | .mapKey k c =>
      Seg.childString f c >>= fun c => k.string f >>= fun k => .ok ([46, 91] ++ k ++ [93] ++ c)
  | .structField i c =>
      Seg.childString f c >>= fun c => .ok ([46, 102, 105, 101, 108, 100, 40] ++ intText i.toInt ++ [41] ++ c)
  | .listElement i c => Seg.childString f c >>= fun c => .ok ([46, 91] ++ intText i.toInt ++ [93] ++ c)
/-- `if r.Child != nil { c = r.Child.String() }`, `expr/field_reference.go:110-113,181-184,255-258` -/
def Seg.childString (f : TcFmt) : Seg → Res Bytes
  | .nil => .ok []
  | .mapKey k c =>
      Seg.childString f c >>= fun c => k.string f >>= fun k => .ok ([46, 91] ++ k ++ [93] ++ c)
  | .structField i c =>
      Seg.childString f c >>= fun c => .ok ([46, 102, 105, 101, 108, 100, 40] ++ intText i.toInt ++ [41] ++ c)
  | .listElement i c => Seg.childString f c >>= fun c => .ok ([46, 91] ++ intText i.toInt ++ [93] ++ c)
end

/-- the text of the root, `expr/field_reference.go:625-634`; `e` is the text of an expression. A nil root is no
expression and writes nothing, like the root reference. -/
def ERoot.string (e : Expr → Res Bytes) : ERoot → Res Bytes
  | .rootReference => .ok []
  | .outer n => .ok ([91, 111, 117, 116, 101, 114, 82, 101, 102, 58] ++ intText n.toNat ++ [93])
  | .lambdaParam n =>
      .ok ([91, 108, 97, 109, 98, 100, 97, 80, 97, 114, 97, 109, 82, 101, 102, 58] ++ intText n.toNat ++ [93])
  | .expr .nil => .ok []
  | .expr x => e x >>= fun s => .ok ([91, 114, 111, 111, 116, 58, 40] ++ s ++ [41, 93])

/-- `FieldReference.String`, `expr/field_reference.go:624-641`: a reference that is nil or a mask is no
`ReferenceSegment`, which the type assertion in line 640 takes for granted. -/
def fieldRefString (f : TcFmt) (e : Expr → Res Bytes) (root : ERoot) (ref : ERef) (known : Option Ty) : Res Bytes :=
  root.string e >>= fun r =>
  let typ := match known with
    | some t => [32, 61, 62, 32] ++ utf8 t.string
    | none => []
  match ref with
  | .seg s => s.string f >>= fun s => .ok (r ++ s ++ typ)
  | .nil => .panic
  | .mask _ => .panic

end Verif
