import Verif.Model.ExtSet
/-!
# Specification vocabulary for extension sets
-/

namespace Verif

/-- A request for the anchor of an id. -/
structure AnchorReq where
  kind : ExtKind
  id : ExtId
  deriving DecidableEq

/-- The requests are made one after the other; the anchors answered, and the set afterwards. -/
def ExtSet.run : ExtSet → List AnchorReq → Res (List UInt32 × ExtSet)
  | s, [] => .ok ([], s)
  | s, r :: rs =>
      s.getAnchor r.kind r.id >>= fun p =>
      ExtSet.run p.2 rs >>= fun q => .ok (p.1 :: q.1, q.2)

/-- The orders in which Go may range over the maps of a set. -/
def Orders.Of (o : Orders) (s : ExtSet) : Prop :=
  o.urns.Perm s.urns.entries ∧ o.types.Perm s.types.byId.entries ∧
  o.variations.Perm s.variations.byId.entries ∧ o.funcs.Perm s.funcs.byId.entries

/-- the anchor of an id, if it has one -/
def ExtSet.anchor (s : ExtSet) (k : ExtKind) (id : ExtId) : Option UInt32 := (s.table k).byId.get id

/-- how many ids of a kind the set has -/
def ExtSet.count (s : ExtSet) (k : ExtKind) : Nat := (s.table k).byId.len

/-- Anchors and ids of each kind are in one-to-one correspondence, no URN has two anchors, and the
URN of each id has one. -/
def ExtSet.Tidy (s : ExtSet) : Prop :=
  (∀ k a id, s.decode k a = some id ↔ s.anchor k id = some a) ∧
  (∀ a b u, s.urns.get a = some u → s.urns.get b = some u → a = b) ∧
  (∀ k a id, s.decode k a = some id → ∃ u, s.urns.get u = some id.urn)

/-- The message as written: present declarations. -/
def ExtMsg.ofProto (p : List (UInt32 × String) × List Decl) : ExtMsg := ⟨p.1, p.2.map some⟩

/-- the declared kind, anchor, URN reference and name -/
def Decl.kind : Decl → ExtKind
  | .type .. => .type
  | .variation .. => .variation
  | .func .. => .func
/-- the anchor a declaration states -/
def Decl.anchor : Decl → UInt32
  | .type _ a _ => a
  | .variation _ a _ => a
  | .func _ a _ => a
/-- the URN reference a declaration states -/
def Decl.urnRef : Decl → UInt32
  | .type r _ _ => r
  | .variation r _ _ => r
  | .func r _ _ => r
/-- the name a declaration states -/
def Decl.name : Decl → String
  | .type _ _ n => n
  | .variation _ _ n => n
  | .func _ _ n => n

/-- No anchor of the message exceeds the number of things of its kind: each declared anchor is at
most the number of different ids of that kind in the set read, each URN anchor at most the number of
URNs. -/
def ExtSet.Compact (s : ExtSet) : Prop :=
  (∀ k a id, s.decode k a = some id → a.toNat ≤ s.count k) ∧
  (∀ a u, s.urns.get a = some u → a.toNat ≤ s.urns.len)

/-- The sets a program can get hold of: a new one, one read from a plan, and these after requests. -/
inductive ExtSet.Made : ExtSet → Prop
  | new : ExtSet.Made .new
  | read (loaded : String → Bool) (m : ExtMsg) (s : ExtSet) (h : getExtensionSet loaded m = .ok s) :
      ExtSet.Made s
  | ask (s s' : ExtSet) (k : ExtKind) (id : ExtId) (a : UInt32) (hs : ExtSet.Made s)
      (h : s.getAnchor k id = .ok (a, s')) : ExtSet.Made s'

/-- Sorted by anchor within each kind: types, then type variations, then functions. -/
def DeclsSorted (decls : List Decl) : Prop :=
  ∃ ts vs fs, decls = ts ++ vs ++ fs ∧
    (∀ d ∈ ts, d.kind = .type) ∧ (∀ d ∈ vs, d.kind = .variation) ∧ (∀ d ∈ fs, d.kind = .func) ∧
    ts.Pairwise (fun a b => a.anchor < b.anchor) ∧ vs.Pairwise (fun a b => a.anchor < b.anchor) ∧
    fs.Pairwise (fun a b => a.anchor < b.anchor)

/-- the URN a plan gives to a reference: the last entry with it -/
def ExtMsg.urn (m : ExtMsg) (ref : UInt32) : Option String :=
  (m.urns.reverse.find? (fun p => p.1 = ref)).map Prod.snd

/-- what a plan declares for an anchor of a kind: the last such declaration -/
def ExtMsg.declared (m : ExtMsg) (k : ExtKind) (a : UInt32) : Option Decl :=
  (m.decls.filterMap id).reverse.find? (fun d => d.kind = k ∧ d.anchor = a)

end Verif
