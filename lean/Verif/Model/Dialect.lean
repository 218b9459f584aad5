import Verif.Model.LocalTypes
import Verif.Model.Collection
/-!
# Dialects, function registries and local function registries

Models `functions/dialect.go`, `functions/functions.go`, `functions/local_functions.go` and the local
variants of `functions/registries.go`. Reading the YAML text is external: a dialect starts as the
decoded file. Loops over Go maps are given the order of the entries as an argument.
-/

namespace Verif

/-! ## Function registries -/

/-- What the registries use of a function variant (`extensions.FunctionVariant`,
`extensions/variants.go:15-30`): `Name()`, `ID()`, `Args()` and `Variadic()`. The identifier is a field
here; in the code it is computed from URN, name and arguments (`extensions/variants.go:358-363`). -/
structure RegFn where
  id : ExtId
  name : String
  args : List FuncParam
  variadic : Option Variadic

/-- one iteration of `processFunctions`, `functions/functions.go:43-50`, for one kind of functions -/
def addFn (m : GoMap String (List RegFn)) (f : RegFn) : GoMap String (List RegFn) :=
  m.set f.name ((m.get f.name).getD [] ++ [f])

/-- `processFunctions`, `functions/functions.go:42-51`: the map by name. (`allFunctions` is the
concatenation of the lists given.) -/
def processFunctions (fs : List RegFn) : GoMap String (List RegFn) := fs.foldl addFn .empty

/-- `getOrEmpty`, `functions/functions.go:14-20`, and `Get…FunctionsByName`,
`functions/functions.go:57-67` -/
def functionsByName (m : GoMap String (List RegFn)) (name : String) : List RegFn := (m.get name).getD []

/-- the test of `getFunctionVariantsByCount`, `functions/functions.go:84`; `IsValidArgumentCount` is
false for a nil receiver (`extensions/simple_extension.go:223-225`) -/
def RegFn.takesCount (f : RegFn) (n : Int) : Bool :=
  decide ((f.args.length : Int) = n) ||
    match f.variadic with
    | some v => v.validCount n
    | none => false

/-- `getFunctionVariantsByCount`, `functions/functions.go:81-89` -/
def functionsByCount (fs : List RegFn) (n : Int) : List RegFn := fs.filter (·.takesCount n)

/-! ## The dialect file -/

/-- `FunctionNotation`, `functions/registries.go:108-114` -/
inductive Notation where
  | inf | pre | post
  deriving DecidableEq, Repr

/-- `dialectFunction`, `functions/dialect.go:314-324`; the required options (a Go map) as a list -/
structure DialectFn where
  name : String
  localName : String
  isInfix : Bool
  isPostfix : Bool
  requiredOptions : List (String × String)
  kernels : List String

/-- `dialectFunctionInfo`, `functions/dialect.go:24-30`. `Options` maps each required option to the
one value allowed (`functions/dialect.go:345-354`). -/
structure FnInfo where
  id : ExtId
  name : String
  localName : String
  options : List (String × List String)
  «notation» : Notation
  deriving DecidableEq

/-- `dialectFile`, `functions/dialect.go:237-245`; the Go maps as lists of entries -/
structure DialectFile where
  types : List (String × String × Bool)
  scalars : List DialectFn
  aggregates : List DialectFn
  windows : List DialectFn
  dependencies : List (String × String)

/-- `d.Dependencies[k]`, with the comma-ok form -/
def DialectFile.dependency (d : DialectFile) (k : String) : Option String :=
  (d.dependencies.find? fun p => p.1 = k).map Prod.snd

/-- `strings.Split(s, sep)` for a one-character separator, on strings (external) -/
def splitString (sep : Char) (s : String) : List String := (splitChar sep s.toList).map String.ofList

/-- the inner loop of `validateAndFixKernels`, `functions/dialect.go:328-337`: the argument types with
`any…` replaced by `any` -/
def fixArgTypes : List String → Res (List String)
  | [] => .ok []
  | a :: as =>
      if a.toList.take 3 = ['a', 'n', 'y'] then fixArgTypes as >>= fun as => .ok ("any" :: as)
      else if a ≠ "" ∧ ¬ isSupportedType a then .err
      else fixArgTypes as >>= fun as => .ok (a :: as)

/-- one iteration of `validateAndFixKernels`, `functions/dialect.go:326-343`. (The code writes the
joined types back only if there was an `any…`; without one the types are unchanged and joining undoes
the splitting.) -/
def fixKernel (kernel : String) : Res String :=
  fixArgTypes (splitString '_' kernel) >>= fun as => .ok ("_".intercalate as)

/-- `validateFunction`, `functions/dialect.go:296-312`, and the kernels it leaves in the file. The
loops range over copies of the functions (`functions/dialect.go:279-280`), but the slice of kernels is
shared, so the changes stay. -/
def DialectFile.validateFunction (d : DialectFile) (f : DialectFn) : Res DialectFn :=
  if f.name = "" ∨ f.kernels = [] then .err
  else match splitString '.' f.name with
    | [dep, _] =>
        if (d.dependency dep).isNone then .err
        else Res.mapL fixKernel f.kernels >>= fun ks => .ok { f with kernels := ks }
    | _ => .err

/-- `validate`, `functions/dialect.go:270-294` -/
def DialectFile.validate (d : DialectFile) : Res DialectFile :=
  if d.types = [] then .err
  else if d.scalars.isEmpty && d.aggregates.isEmpty && d.windows.isEmpty then .err
  else
    Res.mapL d.validateFunction d.scalars >>= fun s =>
    Res.mapL d.validateFunction d.aggregates >>= fun a =>
    Res.mapL d.validateFunction d.windows >>= fun w =>
    .ok { d with scalars := s, aggregates := a, windows := w }

/-- `getUrnAndFunctionName`, `functions/dialect.go:265-268`: a name without a dot panics, an unknown
dependency gives the empty URN -/
def DialectFile.urnAndName (d : DialectFile) (f : DialectFn) : Res (String × String) :=
  match splitString '.' f.name with
  | dep :: name :: _ => .ok ((d.dependency dep).getD "", name)
  | _ => .panic

/-- `GetNotation`, `functions/dialect.go:356-364` -/
def DialectFn.getNotation (f : DialectFn) : Notation :=
  if f.isInfix then .inf else if f.isPostfix then .post else .pre

/-- the body of the inner loop of `buildFunctionInfoMap`, `functions/dialect.go:219-231` -/
def DialectFn.info (f : DialectFn) (urn name kernel : String) : FnInfo :=
  { id := ⟨urn, name ++ ":" ++ kernel⟩
    name := name
    localName := if f.localName = "" then name else f.localName
    options := f.requiredOptions.map fun p => (p.1, [p.2])
    «notation» := f.getNotation }

/-- the entries `buildFunctionInfoMap` makes, in order, `functions/dialect.go:216-233` -/
def DialectFile.infos (d : DialectFile) : List DialectFn → Res (List FnInfo)
  | [] => .ok []
  | f :: fs =>
      d.urnAndName f >>= fun (urn, name) =>
      d.infos fs >>= fun rest =>
      .ok (f.kernels.map (f.info urn name) ++ rest)

/-- `buildFunctionInfoMap`, `functions/dialect.go:214-235` -/
def DialectFile.infoMap (d : DialectFile) (fs : List DialectFn) : Res (GoMap ExtId FnInfo) :=
  d.infos fs >>= fun is => .ok (is.foldl (fun m i => m.set i.id i) .empty)

/-- `dialectImpl`, `functions/dialect.go:32-43`; the cached type registry is left out -/
structure Dialect where
  types : List (String × String × Bool)
  scalars : GoMap ExtId FnInfo
  aggregates : GoMap ExtId FnInfo
  windows : GoMap ExtId FnInfo

/-- `Load`, `functions/dialect.go:197-212`, on the decoded file -/
def DialectFile.load (d : DialectFile) : Res Dialect :=
  d.validate >>= fun d =>
  d.infoMap d.scalars >>= fun s =>
  d.infoMap d.aggregates >>= fun a =>
  d.infoMap d.windows >>= fun w =>
  .ok ⟨d.types, s, a, w⟩

/-! ## Localising functions -/

/-- `LocalScalarFunctionVariant`, `LocalAggregateFunctionVariant`, `LocalWindowFunctionVariant`,
`functions/registries.go:153-184`, with the fields of `LocalFunctionVariant`,
`functions/registries.go:124-128` -/
structure LocalFn where
  fn : RegFn
  localName : String
  options : List (String × List String)
  «notation» : Notation

/-- `newLocal…FunctionVariant`, `functions/registries.go:186-217` -/
def newLocalFn (f : RegFn) (i : FnInfo) : LocalFn := ⟨f, i.localName, i.options, i.notation⟩

/-- `FunctionName`: `LocalFunctionName` or `SubstraitFunctionName`, `functions/registries.go:58-69` -/
inductive FnName where
  | loc (s : String)
  | substrait (s : String)
  deriving DecidableEq, Repr

/-- The variables of `makeLocalFunctionVariantMapAndSlice`, `functions/dialect.go:109-111` -/
structure LocalizeState where
  processed : List ExtId
  byName : GoMap FnName (List LocalFn)
  slice : List LocalFn

/-- the inner loop, `functions/dialect.go:121-129`: the variants made and the identifiers processed -/
def localizeVariants (infos : ExtId → Option FnInfo) : List RegFn → List ExtId → List LocalFn × List ExtId
  | [], done => ([], done)
  | f :: fs, done =>
      if f.id ∈ done then localizeVariants infos fs done
      else match infos f.id with
        | none => localizeVariants infos fs done
        | some i =>
            let r := localizeVariants infos fs (f.id :: done)
            (newLocalFn f i :: r.1, r.2)

/-- `addToSliceMap`, `functions/dialect.go:146-151` -/
def addToSliceMap (m : GoMap FnName (List LocalFn)) (key : FnName) (vs : List LocalFn) :
    GoMap FnName (List LocalFn) := m.set key ((m.get key).getD [] ++ vs)

/-- `addToSliceMapWithLocalKey`, `functions/dialect.go:153-162` -/
def addWithLocalKey (m : GoMap FnName (List LocalFn)) (vs : List LocalFn) : GoMap FnName (List LocalFn) :=
  vs.foldl (fun m v => addToSliceMap m (.loc v.localName) [v]) m

/-- one iteration of the loop of `makeLocalFunctionVariantMapAndSlice`, `functions/dialect.go:112-139` -/
def localizeStep (infos : ExtId → Option FnInfo) (get : String → List RegFn) (s : LocalizeState)
    (i : FnInfo) : Res LocalizeState :=
  if (s.byName.get (.loc i.name)).isSome then
    if i.id ∈ s.processed then .ok s else .err
  else
    let r := localizeVariants infos (get i.name) s.processed
    if i.id ∉ r.2 then .err
    else if r.1 = [] then .ok { s with processed := r.2 }
    else .ok ⟨r.2, addWithLocalKey (addToSliceMap s.byName (.substrait i.name) r.1) r.1, s.slice ++ r.1⟩

/-- the loop of `makeLocalFunctionVariantMapAndSlice`, `functions/dialect.go:112-139` -/
def localizeLoop (infos : ExtId → Option FnInfo) (get : String → List RegFn) :
    List FnInfo → LocalizeState → Res LocalizeState
  | [], s => .ok s
  | i :: is, s => localizeStep infos get s i >>= fun s => localizeLoop infos get is s

/-- `makeLocalFunctionVariantMapAndSlice`, `functions/dialect.go:105-144`; `order` is the order in
which the loop meets the entries of the map -/
def makeLocal (infos : GoMap ExtId FnInfo) (order : List FnInfo) (get : String → List RegFn) :
    Res LocalizeState :=
  localizeLoop infos.get get order ⟨[], .empty, []⟩

/-- `Get…Functions(name, numArgs)` of the local registry, `functions/local_functions.go:52-62` -/
def LocalizeState.byNameAndCount (s : LocalizeState) (name : FnName) (n : Int) : List LocalFn :=
  ((s.byName.get name).getD []).filter fun f => f.fn.takesCount n

/-! ## Finding the function of an invocation -/

/-- `makeLocalFunctionVariantsMap`, `functions/local_functions.go:25-38`, on the list of all variants
with their kinds: scalar, aggregate, window functions in this order
(`functions/dialect.go:74-77`) -/
def variantsById (fs : List (FuncKind × LocalFn)) : GoMap ExtId (FuncKind × LocalFn) :=
  fs.foldl (fun m f => m.set f.2.fn.id f) .empty

/-- `localFunctionRegistryImpl`, `functions/local_functions.go:10-23`, as built by
`LocalizeFunctionRegistry`, `functions/dialect.go:74-88` -/
structure LocalRegistry where
  scalars : LocalizeState
  aggregates : LocalizeState
  windows : LocalizeState
  byId : GoMap ExtId (FuncKind × LocalFn)
  types : LocalTypes

/-- `LocalizeFunctionRegistry`, `functions/dialect.go:56-89`, for iteration orders of the type map and
of the three function maps -/
def localizeFunctions (d : Dialect) (typeOrder : List (String × String × Bool))
    (so ao wo : List FnInfo) (scalars aggregates windows : String → List RegFn) : Res LocalRegistry :=
  localizeTypes typeOrder >>= fun types =>
  makeLocal d.scalars so scalars >>= fun s =>
  makeLocal d.aggregates ao aggregates >>= fun a =>
  makeLocal d.windows wo windows >>= fun w =>
  .ok ⟨s, a, w, variantsById (s.slice.map (FuncKind.scalar, ·) ++ a.slice.map (FuncKind.aggregate, ·) ++
    w.slice.map (FuncKind.window, ·)), types⟩

/-- What `getFunctionVariantByInvocation` uses of an invocation (`expr.FunctionInvocation`): `ID()`,
`GetArgTypes()` and `GetOptions()` (name and preference) -/
structure Invocation where
  id : ExtId
  argTypes : List Ty
  options : List (String × List String)

/-- `IsOptionSupported`, `functions/registries.go:138-150`; `fold` is `strings.EqualFold` (external) -/
def LocalFn.optionSupported (fold : String → String → Bool) (f : LocalFn) (name value : String) : Bool :=
  match f.options.find? fun p => p.1 = name with
  | none => false
  | some p => p.2.any fun v => fold v value

/-- `getFunctionVariantByInvocation`, `functions/local_functions.go:76-97`, for the kind of the method
(`functions/local_functions.go:64-74`); the type assertion at the end panics for another kind -/
def LocalRegistry.byInvocation (fold : String → String → Bool) (r : LocalRegistry) (k : FuncKind)
    (i : Invocation) : Res LocalFn :=
  match r.byId.get i.id with
  | none => .err
  | some (k', f) =>
      if i.argTypes.any fun t => !(r.types.toLocal t).isOk then .err
      else if i.options.any fun o => o.2.any fun v => !f.optionSupported fold o.1 v then .err
      else if k' = k then .ok f else .panic

end Verif
