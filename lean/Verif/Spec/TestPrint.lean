import Verif.Model.TestPrint
import Verif.Model.TestCaseAgg
/-!
# Vocabulary for printing test cases
-/

namespace Verif

/-- The argument is printed as a token, `::` and a type, and a file with that text has the same argument. -/
def ReadBack (x : TcExt) (f : TcFmt) (c : CaseLit) : Prop :=
  ∃ (v : Bytes) (t : TcType) (a : TcArg), c.string f = .ok (v, t.text) ∧ t.parametersLex = true ∧
    tcArgOf v t = some a ∧ visitTypedArgument x a = .ok c

/-- The argument is printed as literals between `[`, `, ` and `]`, `::` and a type, and a file with that text has the
same argument. -/
def ReadBackList (x : TcExt) (f : TcFmt) (c : CaseLit) : Prop :=
  ∃ (vs : List Bytes) (t : TcType) (a : TcArg),
    c.string f = .ok ([91] ++ joinBytes [44, 32] vs ++ [93], t.text) ∧ t.parametersLex = true ∧
    tcListArgOf vs t = some a ∧ visitTypedArgument x a = .ok c

/-- A byte that can stand in a quoted text: neither a quote nor a backslash. -/
def PlainByte (b : UInt8) : Prop := b ≠ 39 ∧ b ≠ 92

/-- A string that cannot be taken for a date, a time or an interval: it begins neither with a digit nor with `P`. -/
def PlainStart (s : Bytes) : Prop :=
  ∀ b, s.head? = some b → ¬ (48 ≤ b.toNat ∧ b.toNat ≤ 57) ∧ b ≠ 80 ∧ b ≠ 112

/-- numbers of an integer type, truth values of a boolean type, and nulls -/
def TcElem.Simple (k : Prim) : TcElem → Prop
  | .lit (.numeric _) => k = .i8 ∨ k = .i16 ∨ k = .i32 ∨ k = .i64
  | .lit (.bool _) => k = .boolean
  | .lit .null => True
  | _ => False

end Verif
