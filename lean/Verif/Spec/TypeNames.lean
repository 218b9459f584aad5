import Verif.Model.TypeNames
/-! # Specification vocabulary: names appearing in a printed schema -/

namespace Verif

/-- the names among the pieces written -/
def tokNames : List Tok → List String
  | [] => []
  | .name s :: ts => s :: tokNames ts
  | .lit _ :: ts => tokNames ts
  | .leaf _ :: ts => tokNames ts

end Verif
