import Mathlib.Data.List.Forall2
import Verif.Model.Dialect
import Verif.Spec.LocalTypes
import Verif.Spec.Variants
/-!
# Specification vocabulary for dialects
-/

namespace Verif

/-- The entries of a dialect's function map carry the identifier under which they are filed. -/
def Keyed (D : GoMap ExtId FnInfo) : Prop := ∀ p ∈ D.entries, p.2.id = p.1

/-- `order` is an order in which Go may iterate over the map: every entry once. -/
def IterationOrder (D : GoMap ExtId FnInfo) (order : List FnInfo) : Prop :=
  order.Perm (D.entries.map Prod.snd)

/-- `v` is the function `f` as the dialect entry `i` presents it. -/
def LocalFn.Presents (v : LocalFn) (f : RegFn) (i : FnInfo) : Prop :=
  v.fn = f ∧ f.id = i.id ∧ v.localName = i.localName ∧ v.options = i.options ∧ v.notation = i.notation

/-- Function and dialect agree about the name of each identifier. -/
def NamesAgree (D : GoMap ExtId FnInfo) (fs : List RegFn) : Prop :=
  ∀ f ∈ fs, ∀ p ∈ D.entries, p.2.id = f.id → p.2.name = f.name

/-- No function has as its local name the Substrait name of another function of the dialect. -/
def NoNameClash (D : GoMap ExtId FnInfo) : Prop :=
  ∀ p ∈ D.entries, ∀ q ∈ D.entries, p.2.localName = q.2.name → p.2.name = q.2.name

/-- Every function of the dialect is in the registry. -/
def AllRegistered (D : GoMap ExtId FnInfo) (fs : List RegFn) : Prop :=
  ∀ p ∈ D.entries, ∃ f ∈ fs, f.id = p.2.id

/-- The function may be called with `n` arguments as far as the lookup by count can tell: it declares
`n` parameters, or its variadic behaviour allows `n`. -/
def RegFn.Takes (f : RegFn) (n : Int) : Prop :=
  (f.args.length : Int) = n ∨ ∃ v, f.variadic = some v ∧ v.min ≤ n ∧ (v.max = 0 ∨ n ≤ v.max)

/-- The functions of a kind in a local registry. -/
def LocalRegistry.ofKind (r : LocalRegistry) : FuncKind → List LocalFn
  | .scalar => r.scalars.slice
  | .aggregate => r.aggregates.slice
  | .window => r.windows.slice

/-- The kinds in the order in which they are registered. -/
def FuncKind.rank : FuncKind → Nat
  | .scalar => 0
  | .aggregate => 1
  | .window => 2

/-- The dialect has names for all argument types of a call and allows all its options. -/
def LocalRegistry.Supports (fold : String → String → Bool) (r : LocalRegistry) (f : LocalFn)
    (i : Invocation) : Prop :=
  (∀ t ∈ i.argTypes, ∃ s, r.types.toLocal t = .ok s) ∧
    ∀ o ∈ i.options, ∀ v ∈ o.2, ∃ p ∈ f.options, p.1 = o.1 ∧ ∃ w ∈ p.2, fold w v = true

/-! ## Dialect files -/

/-- `f` is named by one of the file's dependencies, with this URN, and a function name. -/
def DialectFile.Names (d : DialectFile) (f : DialectFn) (urn fn : String) : Prop :=
  ∃ dep, f.name = dep ++ "." ++ fn ∧ '.' ∉ dep.toList ∧ '.' ∉ fn.toList ∧ (dep, urn) ∈ d.dependencies

/-- A name for an argument type as a dialect may write it. -/
def IsKernelType (a : String) : Prop := a = "" ∨ (∃ rest, a = "any" ++ rest) ∨ a ∈ knownTypeNames

/-- The name of an argument type in the signature of a function: there is only one `any`. -/
def SameKernelType (a b : String) : Prop :=
  ((∃ rest, a = "any" ++ rest) ∧ b = "any") ∨ ((¬ ∃ rest, a = "any" ++ rest) ∧ b = a)

/-- The function is properly declared in the file. -/
def DialectFile.Proper (d : DialectFile) (f : DialectFn) : Prop :=
  (∃ urn fn, d.Names f urn fn) ∧ f.kernels ≠ [] ∧
    ∀ k ∈ f.kernels, ∀ a ∈ splitString '_' k, IsKernelType a

/-- The entry `i` is what the file says about `f` with the argument types `kernel`. -/
def DialectFile.Describes (d : DialectFile) (f : DialectFn) (kernel : String) (i : FnInfo) : Prop :=
  ∃ urn fn key, d.Names f urn fn ∧
    List.Forall₂ SameKernelType (splitString '_' kernel) (splitString '_' key) ∧
    i.id = ⟨urn, fn ++ ":" ++ key⟩ ∧ i.name = fn ∧
    (f.localName = "" → i.localName = fn) ∧ (f.localName ≠ "" → i.localName = f.localName) ∧
    i.options = f.requiredOptions.map (fun p => (p.1, [p.2])) ∧
    (f.isInfix = true → i.notation = .inf) ∧
    (f.isInfix = false → f.isPostfix = true → i.notation = .post) ∧
    (f.isInfix = false → f.isPostfix = false → i.notation = .pre)

/-- The map has exactly what the file says about the functions: every entry describes one of them, and
every one has an entry (if several have the same identifier, some one of them). -/
def DialectFile.Holds (d : DialectFile) (fs : List DialectFn) (D : GoMap ExtId FnInfo) : Prop :=
  Keyed D ∧ (∀ p ∈ D.entries, ∃ f ∈ fs, ∃ k ∈ f.kernels, d.Describes f k p.2) ∧
    ∀ f ∈ fs, ∀ k ∈ f.kernels, ∃ i, d.Describes f k i ∧ ∃ j, (i.id, j) ∈ D.entries

end Verif
