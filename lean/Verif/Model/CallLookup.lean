import Verif.Model.FuncCall
import Verif.Model.Dialect
/-!
# What a call tells about itself, and looking it up in a dialect

Models `GetArgTypes` and `GetOption` of the calls of `expr/functions.go`, and the lookup of a call in a local
registry, which uses them, `functions/local_functions.go`.
-/

namespace Verif

/-- `getArgTypes`, `expr/functions.go:367-380`, the body of the `GetArgTypes` methods (382-384, 624-626, 942-944); a nil
argument has no case and leaves a nil type (`none`) -/
def getArgTypes : List EArg → Res (List (Option Ty))
  | [] => .ok []
  | .enum _ :: as => getArgTypes as >>= fun ts => .ok (some (.enum true 0 0 "" []) :: ts)
  | .expr e :: as => e.getType >>= fun t => getArgTypes as >>= fun ts => .ok (some t :: ts)
  | .type t :: as => getArgTypes as >>= fun ts => .ok (some t :: ts)
  | .nil :: as => getArgTypes as >>= fun ts => .ok (none :: ts)

/-- `GetOption`, `expr/functions.go:356-363,931-938`, of the options of a call (name and preference); the nil slice
returned when there is none is the empty list -/
def getOption : List (String × List String) → String → List String
  | [], _ => []
  | o :: os, name => if name = o.1 then o.2 else getOption os name

/-- the loop over the argument types, `functions/local_functions.go:83-88`; the short name of a nil type panics
(`functions/types.go:210`) -/
def LocalTypes.nameAll (r : LocalTypes) : List (Option Ty) → Res Unit
  | [] => .ok ()
  | none :: _ => .panic
  | some t :: ts => r.toLocal t >>= fun _ => r.nameAll ts

/-- `getFunctionVariantByInvocation`, `functions/local_functions.go:76-97`, of a call: its id, its arguments and its
options. (`LocalRegistry.byInvocation` models the same function for argument types that are given.) -/
def LocalRegistry.byCall (fold : String → String → Bool) (r : LocalRegistry) (k : FuncKind) (id : ExtId)
    (args : List EArg) (options : List (String × List String)) : Res LocalFn :=
  match r.byId.get id with
  | none => .err
  | some (k', f) =>
      getArgTypes args >>= fun ts =>
      r.types.nameAll ts >>= fun _ =>
      if options.any fun o => o.2.any fun v => !f.optionSupported fold o.1 v then .err
      else if k' = k then .ok f else .panic

end Verif
