import Verif.Model.FuncCall
import Verif.Model.RelProto
import Verif.Spec.ExtSet
import Verif.Spec.TypeText
/-!
# Calls of functions that no loaded extension declares
-/

namespace Verif

/-- the short type names that are type expressions of the grammar -/
def keptNames : List String := ["i8", "i16", "i32", "i64", "fp32", "fp64", "date", "time", "uuid", "any"]

/-- the other short type names -/
def refusedNames : List String :=
  ["bool", "str", "vbin", "ts", "tstz", "iyear", "iday", "pt", "pts", "ptstz", "dec", "fchar", "vchar", "fbin",
   "list", "map", "struct", "func", "req", "type"]

/-- A part of a signature: one of `keptNames`, or a user-defined type whose name is a name of the grammar
without underscores. -/
def KeptPart (p : String) : Prop := p ∈ keptNames ∨ ∃ n, IsName n ∧ '_' ∉ n.toList ∧ p = "u!" ++ n

/-- the compound name of a function with these parts in its signature -/
def compoundOf (f : String) (parts : List String) : String := f ++ ":" ++ "_".intercalate parts

/-- A compound name of a function whose signature has parts like that, or none. -/
def KeptName (name : String) : Prop :=
  ∃ f parts, ':' ∉ f.toList ∧ (∀ p ∈ parts, KeptPart p) ∧ name = compoundOf f parts

/-- Calls with the reference `ref`, which stands for the function `id`, are read by the registry as calls
with that reference; the declaration of scalar and window functions has the name of the function. This
is about functions without a declaration in the collection, and messages whose other parts can be read. -/
structure KeepsCalls (rest : Reg) (c : Collection) (s : ExtSet) (base : Option (List Ty)) (ref : UInt32)
    (id : ExtId) : Prop where
  scalar : s.lookupFunc c .scalar ref = none → ∀ opts out t args as,
    EArg.fromProtoList (Reg.ofSet rest c s) base args = .ok as → typeFromProto out = .ok t →
    Expr.fromProto (Reg.ofSet rest c s) base (.scalar ref opts (some out) args) =
      .ok (.scalar ⟨ref, id.name, opts, t⟩ as)
  window : s.lookupFunc c .window ref = none → ∀ opts out t w args as sorts ss parts ps,
    EArg.fromProtoList (Reg.ofSet rest c s) base args = .ok as →
    ESort.fromProtoList (Reg.ofSet rest c s) base sorts = .ok ss →
    Expr.fromProtoList (Reg.ofSet rest c s) base parts = .ok ps → typeFromProto out = .ok t →
    ∃ attrs, Expr.fromProto (Reg.ofSet rest c s) base (.window ref opts (some out) w args sorts parts) =
      .ok (.window ⟨ref, id.name, opts, t⟩ attrs as ss ps) ∧
      attrs.phase = w.phase ∧ attrs.invocation = w.invocation ∧ attrs.boundsType = w.boundsType
  aggregate : s.lookupFunc c .aggregate ref = none → ∀ opts out t phase inv args as sorts ss,
    EArg.fromProtoList (Reg.ofSet rest c s) base args = .ok as →
    ESort.fromProtoList (Reg.ofSet rest c s) base sorts = .ok ss → typeFromProto out = .ok t →
    ∃ f, aggFromProto (Reg.ofSet rest c s) base (some ⟨ref, opts, some out, phase, inv, args, sorts⟩) = .ok f ∧
      f.a.funcRef = ref ∧ f.a.options = opts ∧ f.a.outputType = t ∧ f.phase = phase ∧ f.invocation = inv ∧
      f.args = as ∧ f.sorts = ss

end Verif
