/-!
# Regular expressions for URNs and dependency aliases

Models `extensions/extension_mgr.go:33-45`. Go's `regexp` package is external; the constructs used by
the two patterns are given their documented meaning: both patterns start with `^` and end with `$`
without the `m` flag, so `MatchString` succeeds exactly when the whole text matches, and `[^:]`
matches every character but the colon, line ends included. A Go string is modelled by its characters;
bytes that are not valid UTF-8 (which Go reads as U+FFFD) are not represented.
-/

namespace Verif

/-- The constructs of the regular expressions at `extensions/extension_mgr.go:34-35`. `none` (no
text) and `alt` do not occur in the patterns; they are needed for the derivatives. -/
inductive Rx where
  | none
  | eps
  | cls (p : Char → Bool)
  | alt (a b : Rx)
  | seq (a b : Rx)
  | star (a : Rx)

/-- Does the expression match the empty text? (`regexp.MatchString`, external, called at
`extensions/extension_mgr.go:40,44`) -/
def Rx.nullable : Rx → Bool
  | .none => false
  | .eps => true
  | .cls _ => false
  | .alt a b => a.nullable || b.nullable
  | .seq a b => a.nullable && b.nullable
  | .star _ => true

/-- What remains to be matched after one character (`regexp.MatchString`, external, called at
`extensions/extension_mgr.go:40,44`) -/
def Rx.deriv (c : Char) : Rx → Rx
  | .none => .none
  | .eps => .none
  | .cls p => if p c then .eps else .none
  | .alt a b => .alt (a.deriv c) (b.deriv c)
  | .seq a b => if a.nullable then .alt (.seq (a.deriv c) b) (b.deriv c) else .seq (a.deriv c) b
  | .star a => .seq (a.deriv c) (.star a)

/-- `MatchString` of `^a$` (external, called at `extensions/extension_mgr.go:40,44`) -/
def Rx.matches (a : Rx) : List Char → Bool
  | [] => a.nullable
  | c :: cs => (a.deriv c).matches cs

/-- a literal text in a pattern, `extensions/extension_mgr.go:34` -/
def Rx.lit : List Char → Rx
  | [] => .eps
  | c :: cs => .seq (.cls (· == c)) (Rx.lit cs)

/-- `a+`, `extensions/extension_mgr.go:34` -/
def Rx.plus (a : Rx) : Rx := .seq a (.star a)

/-- `urnPattern`, `extensions/extension_mgr.go:34`: `^extension:[^:]+:[^:]+$` -/
def urnPattern : Rx :=
  .seq (.lit "extension:".toList)
    (.seq (.plus (.cls (· != ':'))) (.seq (.cls (· == ':')) (.plus (.cls (· != ':')))))

/-- `[A-Za-z]` in `extensions/extension_mgr.go:35` -/
def letterClass (c : Char) : Bool := ('A' ≤ c && c ≤ 'Z') || ('a' ≤ c && c ≤ 'z')

/-- `dependencyAliasPattern`, `extensions/extension_mgr.go:35`: `^[A-Za-z_$][A-Za-z0-9_$]*$` -/
def dependencyAliasPattern : Rx :=
  .seq (.cls fun c => letterClass c || c == '_' || c == '$')
    (.star (.cls fun c => letterClass c || ('0' ≤ c && c ≤ '9') || c == '_' || c == '$'))

/-- `validateUrn`, `extensions/extension_mgr.go:39-41` -/
def validateUrn (urn : String) : Bool := urnPattern.matches urn.toList

/-- `validateDependencyAlias`, `extensions/extension_mgr.go:43-45` -/
def validateDependencyAlias (alias : String) : Bool := dependencyAliasPattern.matches alias.toList

end Verif
