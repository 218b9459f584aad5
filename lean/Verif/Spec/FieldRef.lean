import Mathlib.Data.List.Forall2
import Verif.Model.FieldRef
import Verif.Spec.Literals
/-!
# Specification vocabulary for references and masks
-/

namespace Verif

/-- One step of a reference: into a map by key, into a struct by field number, into a list. -/
inductive Step where
  | key (k : Lit)
  | field (i : Int32)
  | element (offset : Int32)

/-- The steps of a chain, outermost first. -/
def Seg.steps : Seg → List Step
  | .nil => []
  | .mapKey k c => .key k :: c.steps
  | .structField i c => .field i :: c.steps
  | .listElement o c => .element o :: c.steps

/-- What one legal step leads to: a struct field that exists, the element type of a list, the value
type of a map whose key type is the type of the key. -/
inductive StepTo : Step → Ty → Ty → Prop
  | field (i : Nat) (f : Int32) (n v ts t) (hi : f.toInt = i) (ht : ts[i]? = some t) :
      StepTo (.field f) (.struct n v ts) t
  | element (o n v t) : StepTo (.element o) (.list n v t) t
  | key (k : Lit) (kt n v mk mv) (hk : k.getType = .ok kt) (hs : kt.Same mk) :
      StepTo (.key k) (.map n v mk mv) mv

/-- Walking the steps one at a time. -/
inductive Walk : List Step → Ty → Ty → Prop
  | done (t) : Walk [] t t
  | step (s ss t u w) (h1 : StepTo s t u) (h2 : Walk ss u w) : Walk (s :: ss) t w

/-- Every map key of the chain is a faithful literal (see `Lit.Faithful`). -/
def Seg.KeysFaithful : Seg → Prop
  | .nil => True
  | .mapKey k c => k.Faithful ∧ c.KeysFaithful
  | .structField _ c => c.KeysFaithful
  | .listElement _ c => c.KeysFaithful

/-- Two chains with the same kinds of steps, field numbers and offsets, and the same key literals. -/
inductive Seg.Same : Seg → Seg → Prop
  | nil : Seg.Same .nil .nil
  | mapKey (k k' c c') (hk : k.Same k') (hc : Seg.Same c c') : Seg.Same (.mapKey k c) (.mapKey k' c')
  | structField (i c c') (hc : Seg.Same c c') : Seg.Same (.structField i c) (.structField i c')
  | listElement (o c c') (hc : Seg.Same c c') : Seg.Same (.listElement o c) (.listElement o c')

/-- Every map key of the chain is a literal (not nil) of a plan type. -/
def Seg.KeysTyped : Seg → Prop
  | .nil => True
  | .mapKey k c => (∃ t, k.getType = .ok t ∧ t.PlanType) ∧ c.KeysTyped
  | .structField _ c => c.KeysTyped
  | .listElement _ c => c.KeysTyped

mutual
/-- Every list and map selection has a child selection, every list item and every map key is set;
only struct items may end without a child. -/
def PMSelect.Complete : PMSelect → Prop
  | .nil => False
  | .unset => False
  | .struct items => PMItem.CompleteList items
  | .list sel child => (∀ i ∈ sel, i ≠ .unset) ∧ child.Complete
  | .map key child => key ≠ .unset ∧ child.Complete
/-- ... for struct items -/
def PMItem.CompleteList : List PMItem → Prop
  | [] => True
  | .mk _ c :: is => (c = .nil ∨ c.Complete) ∧ PMItem.CompleteList is
end

/-- A message that states a chain: the same kinds of steps in the same order, with the same field
numbers and offsets, and at each key step a key message saying what the key literal says
(`Stated`, C59). -/
inductive PSeg.States : PSeg → Seg → Prop
  | nil : PSeg.States .nil .nil
  | mapKey (pk k pc c) (hk : literalToProto k = .ok pk) (hc : PSeg.States pc c) :
      PSeg.States (.mapKey pk pc) (.mapKey k c)
  | structField (i pc c) (hc : PSeg.States pc c) : PSeg.States (.structField i pc) (.structField i c)
  | listElement (o pc c) (hc : PSeg.States pc c) : PSeg.States (.listElement o pc) (.listElement o c)

/-- What the accessors of one list item report about its message. -/
inductive PMListItem.States : PMListItem → MListItem → Prop
  | item (f) : PMListItem.States (.item f) (.element f)
  | slice (s e) : PMListItem.States (.slice s e) (.slice s e)

mutual
/-- What the accessors (`Field`, `Child`, `Selection`, `KeyKind`, `Key`) of a selection report about
its message. -/
inductive PMSelect.States : PMSelect → MSelect → Prop
  | nil : PMSelect.States .nil .nil
  | struct (ps is) (h : PMItem.StatesList ps is) : PMSelect.States (.struct ps) (.struct is)
  | list (ps is pc c) (h : List.Forall₂ PMListItem.States ps is) (hc : PMSelect.States pc c) :
      PMSelect.States (.list ps pc) (.list is c)
  | key (k pc c) (hc : PMSelect.States pc c) : PMSelect.States (.map (.key k) pc) (.map false k c)
  | expression (k pc c) (hc : PMSelect.States pc c) :
      PMSelect.States (.map (.expression k) pc) (.map true k c)
/-- ... of struct items, in order -/
inductive PMItem.StatesList : List PMItem → List MItem → Prop
  | nil : PMItem.StatesList [] []
  | cons (f pc c ps is) (hc : PMSelect.States pc c) (h : PMItem.StatesList ps is) :
      PMItem.StatesList (.mk f pc :: ps) (.mk f c :: is)
end

end Verif
