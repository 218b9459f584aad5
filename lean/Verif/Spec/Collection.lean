import Verif.Model.Collection
/-!
# Vocabulary for statements about collections

Nothing here is used by the model.
-/

namespace Verif

/-- `extension:<owner>:<name>`, owner and name non-empty and without colons -/
def IsUrn (s : String) : Prop :=
  ∃ owner name : List Char, s.toList = "extension:".toList ++ owner ++ [':'] ++ name ∧
    owner ≠ [] ∧ name ≠ [] ∧ ':' ∉ owner ∧ ':' ∉ name

/-- an ASCII letter, an underscore or a dollar sign -/
def IsIdStart (c : Char) : Prop :=
  ('A' ≤ c ∧ c ≤ 'Z') ∨ ('a' ≤ c ∧ c ≤ 'z') ∨ c = '_' ∨ c = '$'

/-- a non-empty text of letters, underscores, dollar signs and digits, not starting with a digit -/
def IsIdentifier (s : String) : Prop :=
  ∃ c cs, s.toList = c :: cs ∧ IsIdStart c ∧ ∀ d ∈ cs, IsIdStart d ∨ ('0' ≤ d ∧ d ≤ '9')

/-- The type refers to the user defined type `n`, itself or at any depth. -/
inductive FTy.Mentions (n : String) : FTy → Prop where
  | here : Mentions n (.udt nl v n ps)
  | param : .dataType t ∈ ps → Mentions n t → Mentions n (.udt nl v m ps)
  | list : Mentions n t → Mentions n (.list nl t)
  | key : Mentions n k → Mentions n (.map nl k v)
  | value : Mentions n v → Mentions n (.map nl k v)
  | field : t ∈ ts → Mentions n t → Mentions n (.struct nl ts)
  | funcParam : t ∈ ps → Mentions n t → Mentions n (.func nl ps r)
  | funcReturn : Mentions n r → Mentions n (.func nl ps r)
  | final : Mentions n f → Mentions n (.derivation as f)

/-- A signature part refers to the user defined type. -/
def Impl.Mentions (n : String) (i : Impl) : Prop :=
  (∃ t, (.value t ∈ i.args ∨ .type t ∈ i.args) ∧ t.Mentions n) ∨
  (∃ t, i.ret = some t ∧ t.Mentions n) ∨ (∃ t, i.intermediate = some t ∧ t.Mentions n)

/-- everything the file declares, with its kind -/
def ExtFile.declared (f : ExtFile) : List (FuncKind × FuncDecl) :=
  f.scalars.map (FuncKind.scalar, ·) ++ f.aggregates.map (FuncKind.aggregate, ·) ++
    f.windows.map (FuncKind.window, ·)

/-- the implementations of the functions called `name`, anywhere in the file -/
def ExtFile.implsNamed (f : ExtFile) (name : String) : List (FuncKind × Impl) :=
  (f.declared.filter fun p => p.2.name = name).flatMap fun p => p.2.impls.map (p.1, ·)

/-- the external `defaults.Set` accepts the declarations of the file -/
def ExtFile.DefaultsOk (f : ExtFile) : Prop :=
  ∀ p ∈ f.declared, p.2.defaultsFail = false ∧ p.2.windowDefaultsFail = false

/-- every parameter declared in the file is a value, a type or an enumeration -/
def ExtFile.NoMissing (f : ExtFile) : Prop :=
  ∀ p ∈ f.declared, ∀ i ∈ p.2.impls, FuncParam.missing ∉ i.args

/-- no function name contains a colon -/
def ExtFile.PlainNames (f : ExtFile) : Prop := ∀ p ∈ f.declared, ':' ∉ p.2.name.toList

/-- a collection filled by any sequence of loads, accepted or not -/
inductive Collection.Reachable : Collection → Prop where
  | zero : Reachable .zero
  | load (c : Collection) (file : Option ExtFile) : Reachable c → Reachable (c.load file).1

/-- The two collections answer every lookup about the URN alike. -/
def SameAnswers (c c' : Collection) (urn : String) : Prop :=
  (∀ k name, c'.getFunc k ⟨urn, name⟩ = c.getFunc k ⟨urn, name⟩) ∧
  (∀ name, c'.getType ⟨urn, name⟩ = c.getType ⟨urn, name⟩) ∧
  (∀ name, c'.getTypeVariation ⟨urn, name⟩ = c.getTypeVariation ⟨urn, name⟩) ∧
  c'.getFileMetadata urn = c.getFileMetadata urn ∧ c'.urnLoaded urn = c.urnLoaded urn

/-- The variant presents the implementation `i` of the function `name`: the signature is the declared
one. -/
def Variant.Presents (v : Variant) (urn name : String) (i : Impl) : Prop :=
  v.urn = urn ∧ v.name = name ∧ v.impl.args = i.args ∧ v.impl.ret = i.ret ∧
    v.impl.intermediate = i.intermediate ∧ v.impl.nullability = i.nullability ∧
    v.impl.variadic = i.variadic ∧ v.impl.attrs = i.attrs

/-- Functions of the first kind can be called as functions of the second: aggregate functions are
window functions, too. -/
def FuncKind.ServesAs (k k' : FuncKind) : Prop := k = k' ∨ (k = .aggregate ∧ k' = .window)

/-- The variant presents one of the implementations in the file, declared as `k` or as something that
serves as `k`. -/
def ExtFile.Declares (f : ExtFile) (k : FuncKind) (v : Variant) : Prop :=
  ∃ p ∈ f.declared, p.1.ServesAs k ∧ ∃ i ∈ p.2.impls, v.Presents f.urn p.2.name i

end Verif
