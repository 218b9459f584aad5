import Verif.Model.Collection
import Verif.Model.TypeParser
/-!
# Declarations made of a compound name

Models `parseFuncName`, `NewScalarFuncVariant`, `NewAggFuncVariant` and `NewWindowFuncVariant` of
`extensions/variants.go`, which make a declaration for a function that no loaded extension has.
-/

namespace Verif

/-- `strings.Cut(_, ":")` (external), `extensions/variants.go:274` -/
def cutColon : List Char → List Char × List Char
  | [] => ([], [])
  | c :: cs => if c = ':' then ([], cs) else (c :: (cutColon cs).1, (cutColon cs).2)

/-- the body of the loop, `extensions/variants.go:279-286`. The parameter's name is left out. -/
def paramOfText (text : List Char) : Res FuncParam :=
  match parseType (String.ofList text) with
  | .ok t => .ok (.value t)
  | _ => .panic

/-- `parseFuncName`, `extensions/variants.go:273-289` -/
def parseFuncName (name : String) : Res (String × List FuncParam) :=
  let r := cutColon name.toList
  if r.2 = [] then .ok (String.ofList r.1, [])
  else Res.mapL paramOfText (splitChar '_' r.2) >>= fun ps => .ok (String.ofList r.1, ps)

/-- `NewScalarFuncVariant`, `NewAggFuncVariant`, `NewWindowFuncVariant`,
`extensions/variants.go:310-317,387-399,509-522`; there is no return type -/
def newFuncVariant (k : FuncKind) (id : ExtId) : Res Variant :=
  parseFuncName id.name >>= fun r =>
  .ok ⟨r.1, "", id.urn, k.fill ⟨r.2, none, none, "", "", .unset, none, {}⟩⟩

end Verif
