import Verif.Model.Go
import Verif.Model.GoMap
/-!
# Extension sets: anchors of types, type variations and functions

Models `extensions/extension_mgr.go:348-661`.
-/

namespace Verif

/-- `ExtensionID`, `extensions/extension_id.go:6-11`; `TypeID`, `FunctionID` and `TypeVariationID`
(14, 19, 22) have the same fields. -/
structure ExtId where
  urn : String
  name : String
  deriving DecidableEq, Repr

/-- The three kinds of things with anchors (`extensions/extension_mgr.go:368-375`). -/
inductive ExtKind where
  | type
  | variation
  | func
  deriving DecidableEq, Repr

/-- The two maps of one kind, `extensions/extension_mgr.go:368-375`. -/
structure IdTable where
  /-- `typesMap`, `typeVariationMap`, `funcMap` -/
  byAnchor : GoMap UInt32 ExtId
  /-- `types`, `typeVariations`, `funcs` -/
  byId : GoMap ExtId UInt32

/-- `set`, `extensions/extension_mgr.go:365-376`. -/
structure ExtSet where
  urns : GoMap UInt32 String
  types : IdTable
  variations : IdTable
  funcs : IdTable

/-- the maps of a kind (field selection; `extensions/extension_mgr.go:365-376`) -/
def ExtSet.table (s : ExtSet) : ExtKind → IdTable
  | .type => s.types
  | .variation => s.variations
  | .func => s.funcs

/-- replacement of the maps of a kind (field assignment; `extensions/extension_mgr.go:365-376`) -/
def ExtSet.withTable (s : ExtSet) (k : ExtKind) (t : IdTable) : ExtSet :=
  match k with
  | .type => { s with types := t }
  | .variation => { s with variations := t }
  | .func => { s with funcs := t }

/-- `NewSet`, `extensions/extension_mgr.go:353-363` -/
def ExtSet.new : ExtSet :=
  ⟨.empty, ⟨.empty, .empty⟩, ⟨.empty, .empty⟩, ⟨.empty, .empty⟩⟩

/-- `DecodeTypeVariation`, `DecodeFunc`, `DecodeType`, `extensions/extension_mgr.go:496-509` -/
def ExtSet.decode (s : ExtSet) (k : ExtKind) (anchor : UInt32) : Option ExtId :=
  (s.table k).byAnchor.get anchor

/-- `FindURN`, `extensions/extension_mgr.go:568-575`: the first entry with the URN in iteration
order `order` (a permutation of the entries of `urns`). -/
def findURN (order : List (UInt32 × String)) (urn : String) : Option UInt32 :=
  (order.find? (fun p => p.2 = urn)).map Prod.fst

/-- `addOrGetURN`, `extensions/extension_mgr.go:577-590`. Simplification: the anchor it returns is
left out, since every caller discards it; what remains does not depend on the iteration order. -/
def addOrGetURN (urns : GoMap UInt32 String) (urn : String) : Res (GoMap UInt32 String) :=
  if urns.entries.any (fun p => p.2 = urn) then .ok urns
  else
    let sz := UInt32.ofNat urns.len + 1
    match urns.get sz with
    | some _ => .err
    | none => .ok (urns.set sz urn)

/-- `encodeType`, `encodeTypeVariation`, `encodeFunc`, `extensions/extension_mgr.go:553-566` -/
def IdTable.encode (t : IdTable) (anchor : UInt32) (id : ExtId) : IdTable :=
  ⟨t.byAnchor.set anchor id, t.byId.set id anchor⟩

/-- `GetTypeAnchor`, `GetFuncAnchor`, `GetTypeVariationAnchor`,
`extensions/extension_mgr.go:511-551` -/
def ExtSet.getAnchor (s : ExtSet) (k : ExtKind) (id : ExtId) : Res (UInt32 × ExtSet) :=
  match (s.table k).byId.get id with
  | some a => .ok (a, s)
  | none =>
      match addOrGetURN s.urns id.urn with
      | .ok urns =>
          let t := s.table k
          let a := UInt32.ofNat t.byId.len + 1
          .ok (a, { s with urns := urns }.withTable k (t.encode a id))
      | _ => .panic  -- `panic(err)`

/-- A `SimpleExtensionDeclaration` (read in `extensions/extension_mgr.go:625-657`): the reference to
a URN, the anchor and the name. -/
inductive Decl where
  | type (urnRef anchor : UInt32) (name : String)
  | variation (urnRef anchor : UInt32) (name : String)
  | func (urnRef anchor : UInt32) (name : String)
  deriving DecidableEq, Repr

/-- The extension part of a plan (`TopLevel`, `extensions/extension_mgr.go:592-595`); a declaration
without mapping type is `none`. -/
structure ExtMsg where
  urns : List (UInt32 × String)
  decls : List (Option Decl)

/-- the URN map, `extensions/extension_mgr.go:598-601` -/
def readURNs : List (UInt32 × String) → GoMap UInt32 String → GoMap UInt32 String
  | [], m => m
  | (a, u) :: l, m => readURNs l (m.set a u)

/-- `resolveRefToURN`, `extensions/extension_mgr.go:613-623`; `loaded` is `Collection.URNLoaded` -/
def resolveRef (loaded : String → Bool) (urns : GoMap UInt32 String) (ref : UInt32) : Res String :=
  match urns.get ref with
  | none => .err
  | some u => if loaded u then .ok u else .err

/-- the declaration loop, `extensions/extension_mgr.go:625-658` -/
def readDecls (loaded : String → Bool) : List (Option Decl) → ExtSet → Res ExtSet
  | [], s => .ok s
  | none :: ds, s => readDecls loaded ds s
  | some (.variation r a n) :: ds, s =>
      resolveRef loaded s.urns r >>= fun u =>
      readDecls loaded ds { s with variations := s.variations.encode a ⟨u, n⟩ }
  | some (.type r a n) :: ds, s =>
      resolveRef loaded s.urns r >>= fun u =>
      readDecls loaded ds { s with types := s.types.encode a ⟨u, n⟩ }
  | some (.func r a n) :: ds, s =>
      resolveRef loaded s.urns r >>= fun u =>
      readDecls loaded ds { s with funcs := s.funcs.encode a ⟨u, n⟩ }

/-- `GetExtensionSet`, `extensions/extension_mgr.go:597-661` -/
def getExtensionSet (loaded : String → Bool) (m : ExtMsg) : Res ExtSet :=
  readDecls loaded m.decls { ExtSet.new with urns := readURNs m.urns .empty }

/-! ### `ToProto` -/

/-- The inner loop of `sort.Slice`'s insertion sort over the elements `off ..` of `l`: element `j` is
moved down while it is less than its predecessor. `less` is given the whole slice and indices
relative to `off`. (The sort used at `extensions/extension_mgr.go:391,406,424,442`.) -/
def bubble {α : Type} (less : List α → Nat → Nat → Res Bool) (off : Nat) : Nat → List α → Res (List α)
  | 0, l => .ok l
  | j + 1, l => less l (j + 1) j >>= fun b =>
      if b then bubble less off j (swapAt l (off + (j + 1)) (off + j)) else .ok l

/-- The outer loop: `m` elements from index `i` on are still to be inserted. (The sort used at
`extensions/extension_mgr.go:391,406,424,442`.) -/
def insertFrom {α : Type} (less : List α → Nat → Nat → Res Bool) (off : Nat) :
    Nat → Nat → List α → Res (List α)
  | 0, _, l => .ok l
  | m + 1, i, l => bubble less off i l >>= fun l' => insertFrom less off m (i + 1) l'

/-- `sort.Slice` on the `n` elements from `off` on (used at `extensions/extension_mgr.go:391,406,424,442`).
Go uses this insertion sort for up to 12 elements. For more elements Go's algorithm differs, but
with a comparator that agrees with a linear order of the elements the result is the same. -/
def sortSlice {α : Type} (less : List α → Nat → Nat → Res Bool) (off n : Nat) (l : List α) :
    Res (List α) :=
  insertFrom less off (n - 1) 1 l

/-- comparator of URNs, `extensions/extension_mgr.go:391` -/
def lessURN (l : List (UInt32 × String)) (i j : Nat) : Res Bool :=
  Res.index l i >>= fun a => Res.index l j >>= fun b => .ok (decide (a.1 < b.1))

/-- `decl.GetExtensionType().TypeAnchor`: nil dereference when the declaration is of another kind
(`extensions/extension_mgr.go:407`) -/
def Decl.typeAnchor : Decl → Res UInt32
  | .type _ a _ => .ok a
  | _ => .panic

/-- `decl.GetExtensionTypeVariation().TypeVariationAnchor`: nil dereference when the declaration is
of another kind (`extensions/extension_mgr.go:425`) -/
def Decl.variationAnchor : Decl → Res UInt32
  | .variation _ a _ => .ok a
  | _ => .panic

/-- `decl.GetExtensionFunction().GetFunctionAnchor()`: 0 when the declaration is of another kind
(`extensions/extension_mgr.go:443`) -/
def Decl.funcAnchor : Decl → Res UInt32
  | .func _ a _ => .ok a
  | _ => .ok 0

/-- The three comparators of declarations, `extensions/extension_mgr.go:406-408,424-426,442-444`. All
of them index the whole list `decls`. -/
def lessDecl (anchor : Decl → Res UInt32) (l : List Decl) (i j : Nat) : Res Bool :=
  Res.index l i >>= fun a => anchor a >>= fun x =>
  Res.index l j >>= fun b => anchor b >>= fun y => .ok (decide (x < y))

/-- `urnBackRef`, `extensions/extension_mgr.go:379-388`: from URN to anchor, the last entry wins -/
def urnBackRef : List (UInt32 × String) → GoMap String UInt32 → GoMap String UInt32
  | [], m => m
  | (a, u) :: l, m => urnBackRef l (m.set u a)

/-- `urnBackRef[id.URN]`: 0 when missing (`extensions/extension_mgr.go:398,415,433`) -/
def refOf (back : GoMap String UInt32) (id : ExtId) : UInt32 := (back.get id.urn).getD 0

/-- The orders in which the four maps are ranged over in `ToProto`,
`extensions/extension_mgr.go:382,394,411,429`. -/
structure Orders where
  urns : List (UInt32 × String)
  types : List (ExtId × UInt32)
  variations : List (ExtId × UInt32)
  funcs : List (ExtId × UInt32)

/-- `ToProto`, `extensions/extension_mgr.go:378-447` -/
def ExtSet.toProto (o : Orders) : Res (List (UInt32 × String) × List Decl) :=
  let back := urnBackRef o.urns .empty
  sortSlice lessURN 0 o.urns.length o.urns >>= fun urns =>
  let d1 := o.types.map (fun e => Decl.type (refOf back e.1) e.2 e.1.name)
  sortSlice (lessDecl Decl.typeAnchor) 0 d1.length d1 >>= fun d1 =>
  let d2 := d1 ++ o.variations.map (fun e => Decl.variation (refOf back e.1) e.2 e.1.name)
  sortSlice (lessDecl Decl.variationAnchor) d1.length (d2.length - d1.length) d2 >>= fun d2 =>
  let d3 := d2 ++ o.funcs.map (fun e => Decl.func (refOf back e.1) e.2 e.1.name)
  sortSlice (lessDecl Decl.funcAnchor) d2.length (d3.length - d2.length) d3 >>= fun d3 =>
  .ok (urns, d3)

end Verif
