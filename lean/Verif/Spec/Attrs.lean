import Verif.Spec.Collection
import Verif.Model.Attrs
/-!
# Vocabulary for statements about the attributes of functions

Nothing here is used by the model.
-/

namespace Verif

/-- everything that is written in the file, with its kind -/
def RawFile.declared (f : RawFile) : List (FuncKind × RawDecl) :=
  f.scalars.map (FuncKind.scalar, ·) ++ f.aggregates.map (FuncKind.aggregate, ·) ++
    f.windows.map (FuncKind.window, ·)

/-- the attribute `x` is what was written, or the default `d` if nothing was written -/
def WrittenOr (w : Option String) (d x : String) : Prop :=
  (w = none → x = d) ∧ ∀ s, w = some s → s ≠ "" → x = s

/-- The variant, used as a function of the kind `k`, answers for the implementation `i` of the function `name`
that is written under the kind `written`: with what is written, and otherwise with the defaults of the
extension format. -/
structure Variant.Answers (v : Variant) (k : FuncKind) (urn name : String) (written : FuncKind) (i : RawImpl) :
    Prop where
  urn : v.urn = urn
  name : v.name = name
  args : v.impl.args = i.args
  ret : v.impl.ret = i.ret
  intermediate : v.impl.intermediate = i.intermediate
  options : v.impl.attrs.options = i.options
  /-- functions are deterministic -/
  deterministic : v.impl.attrs.deterministic = i.deterministic.getD true
  /-- and do not depend on the session -/
  sessionDependent : v.impl.attrs.sessionDependent = i.sessionDependent.getD false
  ordered : v.impl.attrs.ordered = i.ordered.getD false
  maxSet : v.impl.attrs.maxSet = i.maxSet.getD 0
  /-- nullability is handled by MIRROR -/
  nullability : (i.nullability = none → v.impl.nullability = .mirror) ∧
    (i.nullability = some "MIRROR" → v.impl.nullability = .mirror) ∧
    (i.nullability = some "DECLARED_OUTPUT" → v.impl.nullability = .declaredOutput) ∧
    (i.nullability = some "DISCRETE" → v.impl.nullability = .discrete)
  notVariadic : i.variadic = none → v.impl.variadic = none
  /-- variadic arguments are consistent -/
  variadic : ∀ w, i.variadic = some w → ∃ b, v.impl.variadic = some b ∧ b.min = w.min.getD 0 ∧
    b.max = w.max.getD 0 ∧ (w.consistency = none → b.consistent = true) ∧
    (w.consistency = some "CONSISTENT" → b.consistent = true) ∧
    ∀ text, w.consistency = some text → text ≠ "" → text ≠ "CONSISTENT" → b.consistent = false
  /-- aggregations cannot be decomposed -/
  decomposable : k ≠ .scalar → WrittenOr i.decomposable "NONE" v.impl.decomposable
  /-- window functions need their partition, aggregate functions used as window functions stream -/
  windowType : k = .window → (written = .window → WrittenOr i.windowType "PARTITION" v.impl.windowType) ∧
    (written = .aggregate → v.impl.windowType = "STREAMING")

/-- The implementation `i` of the function `d` can be asked for as a function of the kind `k` under the compound
name `n`. -/
def RawFile.Offers (f : RawFile) (k : FuncKind) (n : String) (written : FuncKind) (d : RawDecl) (i : RawImpl) :
    Prop :=
  (written, d) ∈ f.declared ∧ written.ServesAs k ∧ i ∈ d.impls ∧
    ∃ sig, signatureKey i.args = .ok sig ∧ n = d.name ++ ":" ++ sig

/-- Everything that is not said about a declaration made on the fly has its default. -/
structure Variant.Defaults (v : Variant) (k : FuncKind) : Prop where
  deterministic : v.impl.attrs.deterministic = true
  sessionDependent : v.impl.attrs.sessionDependent = false
  ordered : v.impl.attrs.ordered = false
  maxSet : v.impl.attrs.maxSet = 0
  nullability : v.impl.nullability = .mirror
  variadic : v.impl.variadic = none
  decomposable : k ≠ .scalar → v.impl.decomposable = "NONE"
  windowType : k = .window → v.impl.windowType = "PARTITION"

/-- The declaration has the attributes it was asked to have. -/
structure Variant.Has (v : Variant) (k : FuncKind) (o : VariantOpts) : Prop where
  variadic : v.impl.variadic = o.variadic
  sessionDependent : v.impl.attrs.sessionDependent = o.sessionDependent
  deterministic : v.impl.attrs.deterministic = o.deterministic
  ordered : k ≠ .scalar → v.impl.attrs.ordered = o.ordered
  maxSet : k ≠ .scalar → v.impl.attrs.maxSet.toInt = o.maxSet.toNat
  decomposable : k ≠ .scalar → v.impl.decomposable = if o.decomposable = "" then "NONE" else o.decomposable
  intermediate : k ≠ .scalar → o.decomposable ≠ "" → o.decomposable ≠ "NONE" →
    ∃ t, parseType o.intermediate = .ok t ∧ v.impl.intermediate = some t
  windowType : k = .window → v.impl.windowType = if o.windowType = "" then "PARTITION" else o.windowType

end Verif
