import Verif.Model.BuildMore
import Verif.Spec.PlanProto
import Verif.Spec.Writable
/-!
# Vocabulary for plans made with the plan builder
-/

namespace Verif

/-! ## What a call returns -/

/-- The relation a call asks for, with its output mapping: of the kind asked for, with the inputs, expressions
and settings given, and nothing else. The columns of a virtual table have the types of its first row. -/
def BuildCall.Asks (m : Option (List Int32)) : BuildCall → Rel → Prop
  | .project i es, r => ∃ x, i = some x ∧ r = .project ⟨none, m, none⟩ x es none
  | .cross a b, r => ∃ x y, a = some x ∧ b = some y ∧ r = .cross ⟨none, m, none⟩ x y none
  | .fetch i o n, r => ∃ x, i = some x ∧ r = .fetch ⟨none, m, none⟩ x o n none
  | .filter i e, r => ∃ x, i = some x ∧ r = .filter ⟨none, m, none⟩ x e none
  | .join a b e p t, r => ∃ x y, a = some x ∧ b = some y ∧ r = .join ⟨none, m, none⟩ x y e p t none
  | .sort i ss, r => ∃ x, i = some x ∧ r = .sort ⟨none, m, none⟩ x ss none
  | .set op is, r => ∃ xs, is = xs.map some ∧ r = .set ⟨none, m, none⟩ xs op none
  | .scan ns s, r => r = .read ⟨none, m, none⟩ ⟨s, .nil, .nil, none, none⟩ (.named ns none)
  | .virt ns rows, r => ∃ row rest ts, rows = row :: rest ∧ row.length = ns.length ∧
      List.Forall₂ (fun e t => e.getType = .ok t) row ts ∧
      r = .read ⟨none, m, none⟩ ⟨⟨ns, NullabilityRequired, 0, ts⟩, .nil, .nil, none, none⟩ (.virt rows)
  | .write i op ns s, r => ∃ x, i = some x ∧ r = .write ⟨none, m, none⟩ ns none s op x .noOutput
  | .ctas i ns s, r => ∃ x, i = some x ∧ r = .write ⟨none, m, none⟩ ns none s 4 x .modifiedRecords

/-! ## What can be carried -/

/-- The expression can be written and is read as the same over rows of types `base`. -/
def Expr.Carried (reg : Reg) (base : Option (List Ty)) (e : Expr) : Prop :=
  e.Sendable reg base ∧ e.Writable reg

/-- ... or is absent -/
def Expr.CarriedOpt (reg : Reg) (base : Option (List Ty)) (e : Expr) : Prop :=
  e = .nil ∨ e.Carried reg base

/-- The type can be written and is read as the same. -/
def Ty.Carried (t : Ty) : Prop := t.Sendable ∧ t.Writable

/-- The relation has columns, and what is said of their types holds. -/
def Rel.OnRows (r : Rel) (p : List Ty → Prop) : Prop := ∃ ts, r.recordType = .ok ts ∧ p ts

/-- The expressions given to the call are `ok` for the rows they are evaluated on (none for the rows of a virtual
table), and its types can be carried. Inputs of a set operation have columns of types of plans. Writes are left
out. -/
def BuildCall.Uses (ok : Option (List Ty) → Expr → Prop) : BuildCall → Prop
  | .project i es => ∀ x, i = some x → x.OnRows fun ts => ∀ e ∈ es, ok (some ts) e
  | .cross _ _ => True
  | .fetch _ _ _ => True
  | .filter i e => ∀ x, i = some x → x.OnRows fun ts => ok (some ts) e
  | .join a b e p _ => ∀ x y, a = some x → b = some y → x.OnRows fun ls => y.OnRows fun rs =>
      ok (some (ls ++ rs)) e ∧ (p = .nil ∨ ok (some (ls ++ rs)) p)
  | .sort i ss => ∀ x, i = some x → x.OnRows fun ts =>
      ∀ e k, ESort.mk e k ∈ ss → ok (some ts) e ∧ k ≠ .nil
  | .set _ is => ∀ x, some x ∈ is → x.OnRows Ty.PlanTypeList
  | .scan _ s => ∀ t ∈ s.types, t.Carried
  | .virt _ rows => ∀ row ∈ rows, ∀ e ∈ row, ok none e ∧ ∀ t, e.getType = .ok t → t.Carried
  | .write _ _ _ _ => False
  | .ctas _ _ _ => False

/-- The expressions and types given to the call can be carried. -/
abbrev BuildCall.Carried (reg : RelReg) (c : BuildCall) : Prop := c.Uses fun base e => e.Carried reg.toReg base

/-- The relations given to the call. -/
def BuildCall.Takes : BuildCall → Rel → Prop
  | .project i _, x => i = some x
  | .cross a b, x => a = some x ∨ b = some x
  | .fetch i _ _, x => i = some x
  | .filter i _, x => i = some x
  | .join a b _ _ _, x => a = some x ∨ b = some x
  | .sort i _, x => i = some x
  | .set _ is, x => some x ∈ is
  | .scan _ _, _ => False
  | .virt _ _, _ => False
  | .write i _ _ _, x => i = some x
  | .ctas i _ _, x => i = some x

/-- A measure can be carried over rows of types `base`. -/
def Measure.Carried (reg : Reg) (base : Option (List Ty)) (m : Measure) : Prop :=
  m.Sendable reg base ∧ m.Writable reg

/-- The relations that calls of the plan builder make, one after another, from types that can be carried and from
expressions, measures and definitions that are `ok`, `okm` and `okd`. -/
inductive BuiltFrom (ok : Option (List Ty) → Expr → Prop) (okm : Option (List Ty) → Measure → Prop)
    (okd : ExtDef → Prop) : Rel → Prop
  | call (c : BuildCall) (m : Option (List Int32)) (r : Rel) (h : c.run m = .ok r)
      (inputs : ∀ x, c.Takes x → BuiltFrom ok okm okd x) (parts : c.Uses ok) : BuiltFrom ok okm okd r
  | empty (ns : List String) (ts : List Ty) (r : Rel) (h : emptyVirtualTable ns ts = .ok r)
      (parts : ∀ t ∈ ts, t.Carried) : BuiltFrom ok okm okd r
  | extTable (d : Option Nat) (s : NamedStruct) (r : Rel) (h : extensionTable d s = .ok r)
      (parts : ∀ t ∈ s.types, t.Carried) : BuiltFrom ok okm okd r
  | iceberg (uri : String) (sn : Option Snapshot) (s : NamedStruct) (r : Rel)
      (h : icebergTable uri sn s = .ok r) (parts : ∀ t ∈ s.types, t.Carried) : BuiltFrom ok okm okd r
  | extSingle (i : Rel) (d : ExtDef) (r : Rel) (h : extensionSingle (some i) (some d) = .ok r)
      (input : BuiltFrom ok okm okd i) (parts : okd d) : BuiltFrom ok okm okd r
  | extLeaf (d : ExtDef) (r : Rel) (h : extensionLeaf (some d) = .ok r) (parts : okd d) : BuiltFrom ok okm okd r
  | extMulti (is : List Rel) (d : ExtDef) (r : Rel) (h : extensionMulti (is.map some) (some d) = .ok r)
      (inputs : ∀ i ∈ is, BuiltFrom ok okm okd i) (parts : okd d) : BuiltFrom ok okm okd r
  | aggregate (b : AggBuilder) (i : Rel) (r : Rel) (h : b.build = .ok r) (hi : b.input = some i)
      (input : BuiltFrom ok okm okd i)
      (parts : i.OnRows fun ts => (∀ x ∈ b.exprs, ok (some ts) x.e) ∧ ∀ m ∈ b.measures, okm (some ts) m) :
      BuiltFrom ok okm okd r
  | columns (i : Rel) (ms : List Measure) (cols : List Int32) (r : Rel)
      (h : aggregateByColumns (some i) ms cols = .ok r) (input : BuiltFrom ok okm okd i)
      (parts : i.OnRows fun ts => ∀ m ∈ ms, okm (some ts) m) : BuiltFrom ok okm okd r
  | exprs (i : Rel) (ms : List Measure) (groups : List (List PExpr)) (r : Rel)
      (h : aggregateExprs (some i) ms groups = .ok r) (input : BuiltFrom ok okm okd i)
      (parts : i.OnRows fun ts => (∀ g ∈ groups, ∀ x ∈ g, ok (some ts) x.e) ∧ ∀ m ∈ ms, okm (some ts) m) :
      BuiltFrom ok okm okd r

/-- The relations that calls of the plan builder make, one after another, from expressions, types, measures and
definitions that can be carried. -/
abbrev Built (reg : RelReg) : Rel → Prop :=
  BuiltFrom (fun base e => e.Carried reg.toReg base) (fun base m => m.Carried reg.toReg base) fun d => d.Sendable reg

end Verif
