import Verif.Model.Urn
import Verif.Model.ExtSet
import Verif.Model.Variants
/-!
# Collections of extension files

Models `Collection` (`extensions/extension_mgr.go:101-313`), the validation of
`extensions/validation.go` and the expansion of declarations into variants
(`extensions/simple_extension.go:296-308,379-394,461-479`).

Reading the YAML text is external: `Collection.load` is given the decoded file, or `none` when
decoding fails. Fields that are only copied are represented by one opaque number.
-/

namespace Verif

/-- The attributes of an implementation that do not take part in matching and in computing types,
`extensions/simple_extension.go:235-244,332-338`; `options` stands for the options and the
implementations in other systems, which are only copied. -/
structure Attrs where
  options : Nat := 0
  sessionDependent : Bool := false
  deterministic : Bool := false
  ordered : Bool := false
  maxSet : Int64 := 0
  deriving DecidableEq, Repr

/-- `ScalarFunctionImpl`, `AggregateFunctionImpl`, `WindowFunctionImpl`,
`extensions/simple_extension.go:235-244,332-338,417-420`. One structure for the three kinds: scalar
implementations leave `intermediate`, `decomposable` and `windowType` empty. `nullability` is the
field as `defaults.Set` (external) leaves it. -/
structure Impl where
  args : List FuncParam
  /-- `Return`, with its `ValueType`; `none` when either is nil -/
  ret : Option FTy
  /-- `Intermediate.ValueType` -/
  intermediate : Option FTy
  decomposable : String
  windowType : String
  nullability : NullHandling
  variadic : Option Variadic
  attrs : Attrs

/-- `ScalarFunction`, `AggregateFunction`, `WindowFunction`,
`extensions/simple_extension.go:257-262,340-345,422-427`. The metadata is part of `description`. The
two flags say whether `defaults.Set` (external) fails on the declaration, and, for an aggregate
function, on the window function made of it. -/
structure FuncDecl where
  name : String
  description : String
  impls : List Impl
  defaultsFail : Bool := false
  windowDefaultsFail : Bool := false

/-- `ScalarFunctionVariant`, `AggregateFunctionVariant`, `WindowFunctionVariant`,
`extensions/variants.go:337-343,451-457,501-507` -/
structure Variant where
  name : String
  description : String
  urn : String
  impl : Impl

/-- `Type`, `extensions/simple_extension.go:38-44` -/
structure TypeDecl where
  name : String
  other : Nat

/-- `TypeVariation`, `extensions/simple_extension.go:54-59` -/
structure VariationDecl where
  name : String
  other : Nat

/-- `SimpleExtensionFile`, `extensions/simple_extension.go:495-504`. The dependencies (a Go map) are
listed in the order in which the loop of `Load` meets them; `metadata` is `none` for a nil map. -/
structure ExtFile where
  urn : String
  dependencies : List (String × String)
  metadata : Option Nat
  types : List TypeDecl
  variations : List VariationDecl
  scalars : List FuncDecl
  aggregates : List FuncDecl
  windows : List FuncDecl

/-- The three kinds of functions, `extensions/extension_mgr.go:106-108` -/
inductive FuncKind where
  | scalar | aggregate | window
  deriving DecidableEq, Repr

/-- `Collection`, `extensions/extension_mgr.go:101-112`. The maps of the zero `Collection` are nil and
become empty maps at the first `Load` (`extensions/extension_mgr.go:186-197`); a nil map answers like
an empty one, so both are the empty map here. -/
structure Collection where
  urnSet : GoMap String Unit
  simpleNames : GoMap ExtId String
  scalars : GoMap ExtId Variant
  aggregates : GoMap ExtId Variant
  windows : GoMap ExtId Variant
  types : GoMap ExtId TypeDecl
  variations : GoMap ExtId VariationDecl
  metadata : GoMap String Nat

/-- the zero `Collection`, `extensions/extension_mgr.go:101-112` -/
def Collection.zero : Collection := ⟨.empty, .empty, .empty, .empty, .empty, .empty, .empty, .empty⟩

/-- selection of the map of a kind, `extensions/extension_mgr.go:106-108` -/
def Collection.funcs (c : Collection) : FuncKind → GoMap ExtId Variant
  | .scalar => c.scalars
  | .aggregate => c.aggregates
  | .window => c.windows

/-- the collection with the map of a kind replaced, `extensions/extension_mgr.go:106-108` -/
def Collection.withFuncs (c : Collection) (k : FuncKind) (m : GoMap ExtId Variant) : Collection :=
  match k with
  | .scalar => { c with scalars := m }
  | .aggregate => { c with aggregates := m }
  | .window => { c with windows := m }

/-- `GetType`, `extensions/extension_mgr.go:114-117` -/
def Collection.getType (c : Collection) (id : ExtId) : Option TypeDecl := c.types.get id

/-- `GetFileMetadata`, `extensions/extension_mgr.go:121-123` -/
def Collection.getFileMetadata (c : Collection) (urn : String) : Option Nat := c.metadata.get urn

/-- `GetTypeVariation`, `extensions/extension_mgr.go:125-128` -/
def Collection.getTypeVariation (c : Collection) (id : ExtId) : Option VariationDecl :=
  c.variations.get id

/-- `URNLoaded`, `extensions/extension_mgr.go:310-313` -/
def Collection.urnLoaded (c : Collection) (urn : String) : Bool := (c.urnSet.get urn).isSome

/-- `checkMaps`, `extensions/extension_mgr.go:138-151` -/
def checkMaps (id : ExtId) (m : GoMap ExtId Variant) (simple : GoMap ExtId String) :
    Option Variant :=
  match m.get id with
  | some v => some v
  | none =>
    match simple.get id with
    | some compound => m.get { id with name := compound }
    | none => none

/-- `GetScalarFunc`, `GetAggregateFunc`, `GetWindowFunc`, `extensions/extension_mgr.go:174-184` -/
def Collection.getFunc (c : Collection) (k : FuncKind) (id : ExtId) : Option Variant :=
  checkMaps id (c.funcs k) c.simpleNames

/-- the defaults filled in by `GetVariants`, `extensions/simple_extension.go:382-384,464-469` -/
def FuncKind.fill (k : FuncKind) (i : Impl) : Impl :=
  match k with
  | .scalar => i
  | .aggregate => { i with decomposable := if i.decomposable = "" then "NONE" else i.decomposable }
  | .window =>
    { i with
      decomposable := if i.decomposable = "" then "NONE" else i.decomposable
      windowType := if i.windowType = "" then "PARTITION" else i.windowType }

/-- `GetVariants`, `extensions/simple_extension.go:296-308,379-394,461-479` -/
def FuncDecl.variants (d : FuncDecl) (k : FuncKind) (urn : String) : List Variant :=
  d.impls.map fun i => ⟨d.name, d.description, urn, k.fill i⟩

/-- `CompoundName`, `extensions/variants.go:358-360,472-474,594-596` -/
def Variant.compoundName (v : Variant) : Res String :=
  signatureKey v.impl.args >>= fun s => .ok (v.name ++ ":" ++ s)

/-- the loop of `addToMaps`, `extensions/extension_mgr.go:158-162`; the map is changed in place, so
the entries made before a panic remain -/
def addVariants (urn : String) : List Variant → GoMap ExtId Variant → GoMap ExtId Variant × Res Unit
  | [], m => (m, .ok ())
  | v :: vs, m =>
    match v.compoundName with
    | .ok n => addVariants urn vs (m.set ⟨urn, n⟩ v)
    | .err => (m, .err)
    | .panic => (m, .panic)

/-- The collection being filled and the local map `simpleNames` of `Load`,
`extensions/extension_mgr.go:255` -/
structure LoadState where
  c : Collection
  simple : GoMap String String

/-- `addToMaps`, `extensions/extension_mgr.go:157-172` -/
def addToMaps (k : FuncKind) (urn : String) (d : FuncDecl) (s : LoadState) : LoadState × Res Unit :=
  match addVariants urn (d.variants k urn) (s.c.funcs k) with
  | (m, .ok ()) =>
    match d.variants k urn with
    | [v] =>
      match v.compoundName with
      | .ok n =>
        if (s.simple.get v.name).isSome then (⟨s.c.withFuncs k m, s.simple.del v.name⟩, .ok ())
        else (⟨s.c.withFuncs k m, s.simple.set v.name n⟩, .ok ())
      | .err => (⟨s.c.withFuncs k m, s.simple⟩, .err)
      | .panic => (⟨s.c.withFuncs k m, s.simple⟩, .panic)
    | _ => (⟨s.c.withFuncs k m, s.simple⟩, .ok ())
  | (m, .err) => (⟨s.c.withFuncs k m, s.simple⟩, .err)
  | (m, .panic) => (⟨s.c.withFuncs k m, s.simple⟩, .panic)

/-- the loops over the declared functions, `extensions/extension_mgr.go:257-276,295-298` -/
def addDecls (k : FuncKind) (urn : String) : List FuncDecl → LoadState → LoadState × Res Unit
  | [], s => (s, .ok ())
  | d :: ds, s =>
    if d.defaultsFail then (s, .err)
    else
      match addToMaps k urn d s with
      | (s', .ok ()) => addDecls k urn ds s'
      | (s', .err) => (s', .err)
      | (s', .panic) => (s', .panic)

/-- the window function made of an aggregate function, `extensions/extension_mgr.go:279-294` -/
def FuncDecl.asWindow (d : FuncDecl) : FuncDecl :=
  { name := d.name, description := d.description
    impls := d.impls.map fun i => { i with windowType := "STREAMING" }
    defaultsFail := d.windowDefaultsFail }

/-- a step of `Load` and, unless it fails, the next one (`return err`,
`extensions/extension_mgr.go:257-299`) -/
def thenLoad (r : LoadState × Res Unit) (next : LoadState → LoadState × Res Unit) :
    LoadState × Res Unit :=
  match r with
  | (s, .ok ()) => next s
  | (s, .err) => (s, .err)
  | (s, .panic) => (s, .panic)

/-- the four loops of `Load` over functions, `extensions/extension_mgr.go:257-299` -/
def loadFuncs (f : ExtFile) (s : LoadState) : LoadState × Res Unit :=
  thenLoad (thenLoad (thenLoad (addDecls .scalar f.urn f.scalars s)
    (addDecls .aggregate f.urn f.aggregates))
    (addDecls .window f.urn f.windows))
    (addDecls .window f.urn (f.aggregates.map FuncDecl.asWindow))

/-- `addScalarImpl` and `addAggregateImpl`, `extensions/validation.go:50-66` -/
def Impl.types (i : Impl) : Res (List FTy) :=
  Res.mapL FuncParam.typeExpression i.args >>= fun ts =>
    .ok (ts ++ i.ret.toList ++ i.intermediate.toList)

/-- `functionTypes`, `extensions/validation.go:43-84` -/
def ExtFile.functionTypes (f : ExtFile) : Res (List FTy) :=
  Res.mapL Impl.types ((f.scalars ++ f.aggregates ++ f.windows).flatMap FuncDecl.impls) >>= fun tss =>
    .ok tss.flatten

/-- `validateUserDefinedTypeReferences`, `extensions/validation.go:15-40` (no reference carries a
dependency alias, see `FTy.userTypes`) -/
def ExtFile.validateTypeRefs (f : ExtFile) : Res Unit :=
  f.functionTypes >>= fun ts =>
    if (ts.flatMap FTy.userTypes).all fun n => f.types.any fun t => t.name = n then .ok () else .err

/-- the check of the dependencies, `extensions/extension_mgr.go:219-226` -/
def Collection.dependenciesOk (c : Collection) (f : ExtFile) : Bool :=
  f.dependencies.all fun p => validateDependencyAlias p.1 && c.urnLoaded p.2

/-- the changes of `Load` before the functions, `extensions/extension_mgr.go:232-248` -/
def Collection.loadTypes (c : Collection) (f : ExtFile) : Collection :=
  { c with
    urnSet := c.urnSet.set f.urn ()
    metadata := match f.metadata with
      | some x => c.metadata.set f.urn x
      | none => c.metadata
    types := f.types.foldl (fun m t => m.set ⟨f.urn, t.name⟩ t) c.types
    variations := f.variations.foldl (fun m t => m.set ⟨f.urn, t.name⟩ t) c.variations }

/-- `Load`, `extensions/extension_mgr.go:199-308`: the collection afterwards and the outcome. The last
loop ranges over the map `simpleNames`; its keys are distinct, so the order makes no difference to
later lookups and the order of the entries is taken. -/
def Collection.load (c : Collection) : Option ExtFile → Collection × Res Unit
  | none => (c, .err)
  | some f =>
    if f.urn = "" then (c, .err)
    else if !validateUrn f.urn then (c, .err)
    else if c.urnLoaded f.urn then (c, .err)
    else if !c.dependenciesOk f then (c, .err)
    else
      match f.validateTypeRefs with
      | .err => (c, .err)
      | .panic => (c, .panic)
      | .ok () =>
        match loadFuncs f ⟨c.loadTypes f, .empty⟩ with
        | (s, .ok ()) =>
          ({ s.c with
             simpleNames := s.simple.entries.foldl (fun m p => m.set ⟨f.urn, p.1⟩ p.2)
               s.c.simpleNames }, .ok ())
        | (s, .err) => (s.c, .err)
        | (s, .panic) => (s.c, .panic)

end Verif
