import Verif.Model.Dialect
/-!
# The function registry of a collection

Models `NewFunctionRegistry` and its lookups (`functions/functions.go`) on the variants of a collection, and the listings
of a collection. Loops over Go maps are given the order of the entries as an argument.
-/

namespace Verif

/-- `getValues`, `extensions/extension_mgr.go:327-333`, hence `GetAllScalarFunctions`, `GetAllAggregateFunctions` and
`GetAllWindowFunctions`, `extensions/extension_mgr.go:315-325`; `order` is the order in which Go ranges over the map -/
def getValues (order : List (ExtId × Variant)) : List Variant := order.map Prod.snd

/-- `functionRegistryImpl`, `functions/functions.go:7-12`; the kind of a function in `all` is its Go type -/
structure FuncRegistry where
  scalars : GoMap String (List Variant)
  aggregates : GoMap String (List Variant)
  windows : GoMap String (List Variant)
  all : List (FuncKind × Variant)

/-- one iteration of `processFunctions`, `functions/functions.go:43-50` -/
def processVariant (k : FuncKind) (s : GoMap String (List Variant) × List (FuncKind × Variant)) (v : Variant) :
    GoMap String (List Variant) × List (FuncKind × Variant) :=
  (s.1.set v.name ((s.1.get v.name).getD [] ++ [v]), s.2 ++ [(k, v)])

/-- `processFunctions`, `functions/functions.go:42-51`: the map by name and all functions -/
def processVariants (k : FuncKind) (fs : List Variant) (all : List (FuncKind × Variant)) :
    GoMap String (List Variant) × List (FuncKind × Variant) :=
  fs.foldl (processVariant k) (.empty, all)

/-- `NewFunctionRegistry`, `functions/functions.go:24-40`; `order` says in which order Go ranges over the three maps of
the collection -/
def newFuncRegistry (order : FuncKind → List (ExtId × Variant)) : FuncRegistry :=
  let s := processVariants .scalar (getValues (order .scalar)) []
  let a := processVariants .aggregate (getValues (order .aggregate)) s.2
  let w := processVariants .window (getValues (order .window)) a.2
  ⟨s.1, a.1, w.1, w.2⟩

/-- `GetAllFunctions`, `functions/functions.go:53-55` -/
def FuncRegistry.getAll (r : FuncRegistry) : List (FuncKind × Variant) := r.all

/-- `GetScalarFunctionsByName`, `GetAggregateFunctionsByName` and `GetWindowFunctionsByName`,
`functions/functions.go:57-67`, with `getOrEmpty` 14-20 -/
def FuncRegistry.byName (r : FuncRegistry) (k : FuncKind) (name : String) : List Variant :=
  match k with
  | .scalar => (r.scalars.get name).getD []
  | .aggregate => (r.aggregates.get name).getD []
  | .window => (r.windows.get name).getD []

/-- `GetScalarFunctions`, `GetAggregateFunctions` and `GetWindowFunctions`, `functions/functions.go:69-89` -/
def FuncRegistry.byCount (r : FuncRegistry) (k : FuncKind) (name : String) (n : Int) : List Variant :=
  (r.byName k name).filter fun v => decide ((v.impl.args.length : Int) = n) ||
    match v.impl.variadic with
    | some va => va.validCount n
    | none => false

end Verif
