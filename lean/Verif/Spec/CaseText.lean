import Verif.Spec.TestPrint
import Verif.Model.CaseText
import Mathlib.Data.List.Forall2
/-!
# What the text of a test case says

The rules `testCase`, `aggFuncTestCase` and below of the grammar of function test files, with one space where the files
usually have one: which texts write which test cases.
-/

namespace Verif

/-- The text writes the argument: a token, `::` and a type; literals in brackets, `::` and a list type; or a word and
`::enum`. -/
def WritesArg (a : TcArg) (s : Bytes) : Prop :=
  (∃ v t, s = v ++ utf8 "::" ++ utf8 t.text ∧ t.parametersLex = true ∧ tcArgOf v t = some a) ∨
  (∃ vs t, s = utf8 "[" ++ joinBytes (utf8 ", ") vs ++ utf8 "]::" ++ utf8 t.text ∧ t.parametersLex = true ∧
    tcListArgOf vs t = some a) ∨
  ∃ name, s = name ++ utf8 "::enum" ∧ a = .enum name

/-- The text writes the expected result. -/
def WritesResult : TcResult → Bytes → Prop
  | .value a, s => WritesArg a s
  | .error, s => s = utf8 "<!ERROR>"
  | .undefined, s => s = utf8 "<!UNDEFINED>"

/-- The text writes the options: nothing, or `name:value` in brackets with commas between them. -/
def WritesOptions : Option (List (String × String)) → Bytes → Prop
  | none, s => s = []
  | some os, s => os ≠ [] ∧
      s = utf8 " [" ++ joinBytes (utf8 ",") (os.map fun o => utf8 (o.1 ++ ":" ++ o.2)) ++ utf8 "]"

/-- The text writes the rows of a table: `((1, 2), (3, 4))`. -/
def WritesRows (rows : List (List TcLit)) (s : Bytes) : Prop :=
  ∃ ts, List.Forall₂ (List.Forall₂ fun c w => tcLitOf w = some c) rows ts ∧
    s = utf8 "(" ++ joinBytes (utf8 ", ") (ts.map fun r => utf8 "(" ++ joinBytes (utf8 ", ") r ++ utf8 ")") ++ utf8 ")"

/-- The text writes the argument of a call with rows: `col0::i8`, or like any argument. -/
def WritesColArg : TcColArg → Bytes → Prop
  | .column name t, s => s = name ++ utf8 "::" ++ utf8 t.text ∧ t.parametersLex = true
  | .scalar a, s => WritesArg a s

/-- The text writes the argument of a call with a table: `t1.col0`, or like any argument. -/
def WritesTableArg : TcTableArg → Bytes → Prop
  | .column table name, s => s = utf8 table ++ utf8 "." ++ name
  | .scalar a, s => WritesArg a s

/-- The text writes the call: `f(1::i8, 2::i8)`, `f((1, 2)::i8)`, `((1, 2), (3, 4)) f(col0::i8)` or
`DEFINE t1(i8, i8) = ((1, 2), (3, 4)) f(t1.col0)`. -/
def WritesCall : TcCall → Bytes → Prop
  | .scalar name args, s => ∃ ts, List.Forall₂ WritesArg args ts ∧
      s = utf8 name ++ utf8 "(" ++ joinBytes (utf8 ", ") ts ++ utf8 ")"
  | .column name cells t, s => ∃ ts, List.Forall₂ (fun c w => tcLitOf w = some c) cells ts ∧ t.parametersLex = true ∧
      s = utf8 name ++ utf8 "((" ++ joinBytes (utf8 ", ") ts ++ utf8 ")::" ++ utf8 t.text ++ utf8 ")"
  | .compact rows name args, s => ∃ table ts, WritesRows rows table ∧ List.Forall₂ WritesColArg args ts ∧
      s = table ++ utf8 " " ++ utf8 name ++ utf8 "(" ++ joinBytes (utf8 ", ") ts ++ utf8 ")"
  | .table tn types rows name args, s => ∃ table ts, WritesRows rows table ∧ List.Forall₂ WritesTableArg args ts ∧
      (∀ t ∈ types, t.parametersLex = true) ∧
      s = utf8 "DEFINE " ++ utf8 tn ++ utf8 "(" ++ joinBytes (utf8 ", ") (types.map fun t => utf8 t.text) ++ utf8 ") = " ++
        table ++ utf8 " " ++ utf8 name ++ utf8 "(" ++ joinBytes (utf8 ", ") ts ++ utf8 ")"

/-- The text writes the test case. -/
def WritesCase (c : TcCase) (s : Bytes) : Prop :=
  ∃ call opts res, WritesCall c.call call ∧ WritesOptions c.options opts ∧ WritesResult c.result res ∧
    s = call ++ opts ++ utf8 " = " ++ res

/-- The value of an option of a test case. -/
def TestCase.option (tc : TestCase) (name : String) : Option String := tc.options.bind (·.get name)

/-- The same test: everything is the same, the options as a map. -/
def TestCase.Same (a b : TestCase) : Prop :=
  (∀ name, a.option name = b.option name) ∧ { a with options := none } = { b with options := none }

/-- An order in which Go can range over the options. -/
def TestCase.Order (tc : TestCase) (entries : List (String × String)) : Prop :=
  match tc.options with
  | none => entries = []
  | some m => entries.Perm m.entries

/-- The argument is printed as a text that is read as the same argument (C108). -/
def CaseLit.Readable (x : TcExt) (f : TcFmt) (c : CaseLit) : Prop :=
  ReadBack x f c ∨ ReadBackList x f c ∨ ∃ name, c = ⟨commonEnumTy, .enum name⟩

/-- The same for a scalar argument beside columns, whose type is not adapted. -/
def CaseLit.ReadableAsIs (x : TcExt) (f : TcFmt) (c : CaseLit) : Prop :=
  ∃ s a, c.text f = .ok s ∧ WritesArg a s ∧ visitArgument x a = .ok c

end Verif
