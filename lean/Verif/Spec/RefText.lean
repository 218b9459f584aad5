import Verif.Model.RefText
/-!
# Field references that point to the same place
-/

namespace Verif

/-- Two paths go through the same fields, elements and keys; keys count as the same if they read the same. -/
inductive SamePath (f : TcFmt) : Seg → Seg → Prop
  | done : SamePath f .nil .nil
  | field (i p q) : SamePath f p q → SamePath f (.structField i p) (.structField i q)
  | element (i p q) : SamePath f p q → SamePath f (.listElement i p) (.listElement i q)
  | key (k l s p q) : k.string f = .ok s → l.string f = .ok s → SamePath f p q →
      SamePath f (.mapKey k p) (.mapKey l q)

/-- No key of the path reads with a closing bracket in it. -/
def Seg.KeysClosed (f : TcFmt) : Seg → Prop
  | .nil => True
  | .mapKey k c => (∀ s, k.string f = .ok s → 93 ∉ s) ∧ c.KeysClosed f
  | .structField _ c => c.KeysClosed f
  | .listElement _ c => c.KeysClosed f

/-- Two references start at the same place; expressions count as the same if they read the same (`e`). -/
inductive SameRoot (e : Expr → Res Bytes) : ERoot → ERoot → Prop
  | same (a) : SameRoot e a a
  | expr (x y s) : e x = .ok s → e y = .ok s → SameRoot e (.expr x) (.expr y)

/-- The reference starts somewhere: its root is not nil. -/
def ERoot.Present : ERoot → Prop
  | .expr .nil => False
  | _ => True

/-- If the reference starts at an expression, that reads without a closing bracket. -/
def ERoot.Closed (e : Expr → Res Bytes) : ERoot → Prop
  | .expr x => ∀ s, e x = .ok s → 93 ∉ s
  | _ => True

/-- If the reference starts at an expression, that can be printed. -/
def ERoot.Prints (e : Expr → Res Bytes) : ERoot → Prop
  | .expr .nil => True
  | .expr x => ∃ s, e x = .ok s
  | _ => True

/-- All keys of the path can be printed. -/
def Seg.KeysPrint (f : TcFmt) : Seg → Prop
  | .nil => True
  | .mapKey k c => (∃ s, k.string f = .ok s) ∧ c.KeysPrint f
  | .structField _ c => c.KeysPrint f
  | .listElement _ c => c.KeysPrint f

/-- The number that a literal of an integer type stands for. -/
def PVal.number : PVal → Option Int
  | .int8 i => some i.toInt
  | .int16 i => some i.toInt
  | .int32 i => some i.toInt
  | .int64 i => some i.toInt
  | _ => none

end Verif
