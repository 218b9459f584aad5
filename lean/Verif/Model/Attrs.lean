import Verif.Model.FuncName
/-!
# Attributes of functions

Models how the attributes of a function (deterministic, session dependent, nullability handling, ...) get
from an extension file into the variants of a collection, and into declarations made on the fly:
`UnmarshalYAML` and `ResolveURN` of `extensions/simple_extension.go` and the constructors of
`extensions/variants.go`.
-/

namespace Verif

/-- `variadic` as written in an extension file, `extensions/simple_extension.go:217-221`; `none` for what is
left out -/
structure RawVariadic where
  min : Option Int
  max : Option Int
  consistency : Option String

/-- An entry of `impls` as written in an extension file, with the keys of
`extensions/simple_extension.go:235-244,332-338,417-420`; `none` for what is left out. The types are given
parsed, the options stand for themselves as in `Attrs`. -/
structure RawImpl where
  args : List FuncParam
  ret : Option FTy
  intermediate : Option FTy
  decomposable : Option String
  windowType : Option String
  nullability : Option String
  variadic : Option RawVariadic
  options : Nat
  sessionDependent : Option Bool
  deterministic : Option Bool
  ordered : Option Bool
  maxSet : Option Int64

/-- A function as written in an extension file, `extensions/simple_extension.go:257-262,340-345,422-427` -/
structure RawDecl where
  name : String
  description : String
  impls : List RawImpl

/-- An extension file as written, `extensions/simple_extension.go:495-504` -/
structure RawFile where
  urn : String
  dependencies : List (String × String)
  metadata : Option Nat
  types : List TypeDecl
  variations : List VariationDecl
  scalars : List RawDecl
  aggregates : List RawDecl
  windows : List RawDecl

/-- `VariadicBehavior` with its strings, `extensions/simple_extension.go:217-221` -/
structure GoVariadic where
  min : Int
  max : Int
  consistency : String

/-- `ScalarFunctionImpl`, `AggregateFunctionImpl` and `WindowFunctionImpl` with their strings,
`extensions/simple_extension.go:235-244,332-338,417-420` -/
structure GoImpl where
  args : List FuncParam
  ret : Option FTy
  intermediate : Option FTy
  decomposable : String
  windowType : String
  nullability : String
  variadic : Option GoVariadic
  attrs : Attrs

/-- `UnmarshalYAML`, `extensions/simple_extension.go:266-294,349-377,431-459`, for one implementation. The
decoder (external) leaves a field whose key is missing at its zero value. -/
def RawImpl.unmarshal (i : RawImpl) : GoImpl :=
  { args := i.args, ret := i.ret, intermediate := i.intermediate
    decomposable := i.decomposable.getD ""
    windowType := i.windowType.getD ""
    nullability := i.nullability.getD ""
    variadic := i.variadic.map fun v => ⟨v.min.getD 0, v.max.getD 0, v.consistency.getD ""⟩
    attrs :=
      { options := i.options
        sessionDependent := i.sessionDependent.getD false
        deterministic := match i.deterministic with
          | some b => b
          | none => true
        ordered := i.ordered.getD false
        maxSet := i.maxSet.getD 0 } }

/-- the external `defaults.Set` on one string field: the text of the `default` tag replaces the empty string,
`extensions/simple_extension.go:220,241` -/
def setDefault (s tag : String) : String := if s = "" then tag else s

/-- the external `defaults.Set` on one implementation, `extensions/extension_mgr.go:258,265,272,295`: the two
fields with a `default` tag, `extensions/simple_extension.go:220,241` -/
def GoImpl.setDefaults (i : GoImpl) : GoImpl :=
  { i with
    nullability := setDefault i.nullability "MIRROR"
    variadic := i.variadic.map fun v => { v with consistency := setDefault v.consistency "CONSISTENT" } }

/-- the constants of `extensions/simple_extension.go:211-215` -/
def NullHandling.ofString (s : String) : NullHandling :=
  if s = "" then .unset
  else if s = "MIRROR" then .mirror
  else if s = "DECLARED_OUTPUT" then .declaredOutput
  else if s = "DISCRETE" then .discrete
  else .other

/-- the comparison with `ConsistentParams`, `extensions/simple_extension.go:205`, `extensions/variants.go:244` -/
def GoVariadic.variadic (v : GoVariadic) : Variadic := ⟨v.min, v.max, v.consistency = "CONSISTENT"⟩

/-- the implementation as the rest of the model has it, with the strings replaced by what the code compares
them with, `extensions/simple_extension.go:235-244` -/
def GoImpl.impl (i : GoImpl) : Impl :=
  ⟨i.args, i.ret, i.intermediate, i.decomposable, i.windowType, .ofString i.nullability,
    i.variadic.map GoVariadic.variadic, i.attrs⟩

/-- a function after `UnmarshalYAML` and `defaults.Set`, `extensions/extension_mgr.go:257-276`. `defaults.Set`
(external) does not fail on these structures. -/
def RawDecl.decl (d : RawDecl) : FuncDecl :=
  { name := d.name, description := d.description
    impls := d.impls.map fun i => i.unmarshal.setDefaults.impl }

/-- the file that `Load` decodes, `extensions/extension_mgr.go:202-206`, with `defaults.Set` done on the
functions (`extensions/extension_mgr.go:257-276`; what comes before does not look at the fields it sets) -/
def RawFile.file (f : RawFile) : ExtFile :=
  { urn := f.urn, dependencies := f.dependencies, metadata := f.metadata, types := f.types
    variations := f.variations, scalars := f.scalars.map RawDecl.decl
    aggregates := f.aggregates.map RawDecl.decl, windows := f.windows.map RawDecl.decl }

/-- `ResolveURN`, `extensions/simple_extension.go:310-322,396-408,481-493` -/
def FuncDecl.resolveURN (d : FuncDecl) (urn : String) : List Variant :=
  d.impls.map fun i => ⟨d.name, d.description, urn, i⟩

/-- `AggVariantOptions` and `WindowVariantOpts`, `extensions/variants.go:401-412,524-536`, and the parameters
of `NewScalarFuncVariantWithProps`, `extensions/variants.go:323`, which has only the first three -/
structure VariantOpts where
  variadic : Option Variadic
  sessionDependent : Bool
  deterministic : Bool
  ordered : Bool
  maxSet : UInt64
  decomposable : String
  intermediate : String
  windowType : String

/-- the check of the intermediate type, `extensions/variants.go:416-430,540-557` -/
def VariantOpts.intermediateType (o : VariantOpts) : Res (Option FTy) :=
  if o.decomposable = "" ∨ o.decomposable = "NONE" then .ok none
  else if o.intermediate = "" then .panic
  else match parseType o.intermediate with
    | .ok t => .ok (some t)
    | _ => .panic

/-- `NewScalarFuncVariantWithProps`, `NewAggFuncVariantOpts`, `NewWindowFuncVariantOpts`,
`extensions/variants.go:323-335,414-449,538-579` -/
def newFuncVariantOpts (k : FuncKind) (id : ExtId) (o : VariantOpts) : Res Variant :=
  match k with
  | .scalar =>
    parseFuncName id.name >>= fun r =>
    .ok ⟨r.1, "", id.urn, ⟨r.2, none, none, "", "", .unset, o.variadic,
      { sessionDependent := o.sessionDependent, deterministic := o.deterministic }⟩⟩
  | k =>
    o.intermediateType >>= fun t =>
    parseFuncName id.name >>= fun r =>
    .ok ⟨r.1, "", id.urn, k.fill ⟨r.2, none, t, o.decomposable, if k = .window then o.windowType else "", .unset,
      o.variadic,
      { sessionDependent := o.sessionDependent, deterministic := o.deterministic, ordered := o.ordered
        maxSet := o.maxSet.toInt64 }⟩⟩

end Verif
