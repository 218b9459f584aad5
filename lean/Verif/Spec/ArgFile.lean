import Verif.Model.ArgFile
/-! # Specification vocabulary for arguments in extension files -/

namespace Verif

/-- An argument as the extension format has it: an enumeration with its options, a value with the text
of its type, or a type. Name, description and `constant` may be left out. -/
inductive ArgDecl where
  | enum (name description : Option String) (options : List String)
  | value (name description : Option String) (type : String) (constant : Option Bool)
  | type (name description : Option String) (type : String)

/-- The text of the argument's type, if it has one. -/
def ArgDecl.text : ArgDecl → Option String
  | .enum .. => none
  | .value _ _ t _ => some t
  | .type _ _ t => some t

/-- The entry of the file is a way to write the argument (keys the format does not know do not
matter). -/
def ArgDecl.WrittenAs : ArgDecl → YamlMap → Prop
  | .enum n d os, m =>
      m.get "name" = n.map .text ∧ m.get "description" = d.map .text ∧
        m.get "options" = some (.seq (os.map .text))
  | .value n d t c, m =>
      m.get "name" = n.map .text ∧ m.get "description" = d.map .text ∧ m.get "options" = none ∧
        m.get "value" = some (.text t) ∧ m.get "constant" = c.map .bool
  | .type n d t, m =>
      m.get "name" = n.map .text ∧ m.get "description" = d.map .text ∧ m.get "options" = none ∧
        m.get "value" = none ∧ m.get "type" = some (.text t)

/-- The argument in memory is the one declared; what was left out is empty or false. -/
def ArgDecl.Is : ArgDecl → GoArg → Prop
  | .enum n d os, g => g = .enum (n.getD "") (d.getD "") os
  | .value n d s c, g => ∃ t, parseType s = .ok t ∧ g = .value (n.getD "") (d.getD "") t (c.getD false)
  | .type n d s, g => ∃ t, parseType s = .ok t ∧ g = .type (n.getD "") (d.getD "") t

/-- What the argument contributes to the function's compound name: `req` for enumerations, `type` for
types, the short name of the type for values. -/
def ArgDecl.NamePart : ArgDecl → String → Prop
  | .enum .., p => p = "req"
  | .value _ _ s _, p => ∃ t, parseType s = .ok t ∧ p = t.shortString
  | .type .., p => p = "type"

end Verif
