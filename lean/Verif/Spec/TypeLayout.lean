import Verif.Spec.TypeText
/-!
# Specification vocabulary for the layout of type expressions
-/

namespace Verif

/-- The text has no `//` and no `/*`. -/
def NoComment (s : String) : Prop := ¬ "//".toList <:+: s.toList ∧ ¬ "/*".toList <:+: s.toList

/-- Spaces and tabs. -/
def IsBlanks (s : String) : Prop := ∀ c ∈ s.toList, c = ' ' ∨ c = '\t'

/-- A text on one line. -/
def OneLine (s : String) : Prop := '\n' ∉ s.toList ∧ '\r' ∉ s.toList

/-- Signs that are never part of a longer sign. -/
def IsLoneSign (c : Char) : Prop := c ∈ [',', '(', ')', '[', ']', '?', '+', '%', '#', '.']

/-- The character occurs in type expressions outside of comments: letters, digits, signs, white space. -/
def InGrammar (c : Char) : Prop :=
  IsLetter c ∨ IsDigit c ∨ c ∈ ['-', ':', '!', '>', '<', '/', '+', '*', '%', '=', '(', ')', '[', ']', ',', '?',
    '#', '.', ' ', '\t', '\r', '\n']

end Verif
