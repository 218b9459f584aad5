import Verif.Model.Attrs
import Verif.Model.TypeParser
import Verif.Model.TypeText
/-!
# Arguments of functions in extension files

Models `FuncParameterList.UnmarshalYAML` (`extensions/simple_extension.go:117-195`) and the two YAML
methods of `TypeExpression` (`types/parser/parse.go:17-42`). The YAML decoder and encoder are
external: an entry of `args` is the map of its keys, with values as the decoder puts them into
variables of type `any`.
-/

namespace Verif

/-- A YAML value decoded into a variable of type `any` (external) -/
inductive Yaml where
  | null
  | bool (b : Bool)
  | number (n : Int)
  | text (s : String)
  | seq (vs : List Yaml)
  | map (kvs : List (String × Yaml))

/-- `map[string]any`, `extensions/simple_extension.go:118`; keys do not repeat -/
abbrev YamlMap := List (String × Yaml)

/-- `v, ok := arg[key]`, `extensions/simple_extension.go:128,131,135,146,148,172` -/
def YamlMap.get (m : YamlMap) (key : String) : Option Yaml := List.lookup key m

/-- An argument after decoding: `EnumArg`, `ValueArg`, `TypeArg` with all their fields
(`extensions/simple_extension.go:68-72,84-89,101-105`), or the nil interface -/
inductive GoArg where
  | enum (name description : String) (options : List String)
  | value (name description : String) (t : FTy) (constant : Bool)
  | type (name description : String) (t : FTy)
  | missing

/-- What the rest of the model keeps of an argument, `extensions/simple_extension.go:62-66` -/
def GoArg.param : GoArg → FuncParam
  | .enum name _ options => .enum name options
  | .value _ _ t _ => .value t
  | .type _ _ t => .type t
  | .missing => .missing

/-- `v.(string)`, `extensions/simple_extension.go:129,132,139` -/
def Yaml.asString : Yaml → Res String
  | .text s => .ok s
  | _ => .panic

/-- `v.(bool)`, `extensions/simple_extension.go:149` -/
def Yaml.asBool : Yaml → Res Bool
  | .bool b => .ok b
  | _ => .panic

/-- `opt.([]any)` and the loop after it, `extensions/simple_extension.go:136-140` -/
def Yaml.asStrings : Yaml → Res (List String)
  | .seq vs => Res.mapL Yaml.asString vs
  | _ => .panic

/-- `TypeExpression.UnmarshalYAML`, `types/parser/parse.go:25-42` -/
def readTypeExpression : Yaml → Res FTy
  | .text s => parseType s
  | _ => .err

/-- The calls of `TypeExpression.UnmarshalYAML` at `extensions/simple_extension.go:158-168,178-188`:
the function handed over sets the variable by reflection, which panics for a null value
(`reflect.ValueOf(nil)`, external). -/
def readArgType : Yaml → Res FTy
  | .null => .panic
  | v => readTypeExpression v

/-- `name` and `description`, `extensions/simple_extension.go:128-133` -/
def YamlMap.string (m : YamlMap) (key : String) : Res String :=
  match m.get key with
  | some v => v.asString
  | none => .ok ""

/-- The body of the loop of `FuncParameterList.UnmarshalYAML`,
`extensions/simple_extension.go:123-192` -/
def readArg (m : YamlMap) : Res GoArg :=
  m.string "name" >>= fun name => m.string "description" >>= fun desc =>
  match m.get "options" with
  | some opt => opt.asStrings >>= fun values => .ok (.enum name desc values)
  | none =>
  match m.get "value" with
  | some val =>
      (match m.get "constant" with
        | some c => c.asBool
        | none => .ok false) >>= fun constant =>
      readArgType val >>= fun t => .ok (.value name desc t constant)
  | none =>
  match m.get "type" with
  | some typ => readArgType typ >>= fun t => .ok (.type name desc t)
  | none => .ok .missing

/-- `FuncParameterList.UnmarshalYAML`, `extensions/simple_extension.go:117-195`, when the decoder
finds a list of maps -/
def readArgs (ms : List YamlMap) : Res (List GoArg) := Res.mapL readArg ms

/-- `omitempty`, `extensions/simple_extension.go:69-70,85-86,88,102-103` (external): a field with its
zero value is left out -/
def omitEmpty (key : String) (s : String) : YamlMap := if s = "" then [] else [(key, .text s)]

/-- The encoder (external) on the structures of `extensions/simple_extension.go:68-72,84-89,101-105`,
with `TypeExpression.MarshalYAML`, `types/parser/parse.go:21-23`. A nil interface is written as null,
which is read as an empty map. -/
def GoArg.write : GoArg → YamlMap
  | .enum name desc options =>
      omitEmpty "name" name ++ omitEmpty "description" desc ++ [("options", .seq (options.map .text))]
  | .value name desc t constant =>
      omitEmpty "name" name ++ omitEmpty "description" desc ++ [("value", .text t.string)] ++
        (if constant then [("constant", .bool true)] else [])
  | .type name desc t =>
      omitEmpty "name" name ++ omitEmpty "description" desc ++ [("type", .text t.string)]
  | .missing => []

end Verif
