import Verif.Model.TestCase
/-!
# Tokens and arguments of function test files

Models the rules of the generated lexer of function test files for the tokens of values
(`testcases/parser/baseparser/functestcase_lexer.go:115-703`, read from the serialized automaton) and the rules of the
parser for arguments (`testcases/parser/baseparser/functestcase_parser.go:78-437`, likewise).
-/

namespace Verif

/-! ## Regular expressions -/

/-- The rules of a lexer, `testcases/parser/baseparser/functestcase_lexer.go:115`; on bytes instead of characters,
which makes no difference as the sets of all rules are ASCII or complements of ASCII sets. -/
inductive Bx where
  | none
  | eps
  | set (p : UInt8 → Bool)
  | seq (a b : Bx)
  | alt (a b : Bx)
  | star (a : Bx)

/-- Matches the empty text; the lexer (external) for rules of `testcases/parser/baseparser/functestcase_lexer.go:115` -/
def Bx.nullable : Bx → Bool
  | .none => false
  | .eps => true
  | .set _ => false
  | .seq a b => a.nullable && b.nullable
  | .alt a b => a.nullable || b.nullable
  | .star _ => true

/-- What is left to match after a byte; the lexer (external), see `Bx.nullable`,
`testcases/parser/baseparser/functestcase_lexer.go:115` -/
def Bx.deriv (b : UInt8) : Bx → Bx
  | .none => .none
  | .eps => .none
  | .set p => if p b then .eps else .none
  | .seq r s => if r.nullable then .alt (.seq (r.deriv b) s) (s.deriv b) else .seq (r.deriv b) s
  | .alt r s => .alt (r.deriv b) (s.deriv b)
  | .star r => .seq (r.deriv b) (.star r)

/-- Matches the whole text; the lexer (external), see `Bx.nullable`,
`testcases/parser/baseparser/functestcase_lexer.go:115` -/
def Bx.run : Bx → Bytes → Bool
  | r, [] => r.nullable
  | r, b :: s => (r.deriv b).run s

/-- one after the other, `testcases/parser/baseparser/functestcase_lexer.go:115` -/
def Bx.seqs (rs : List Bx) : Bx := rs.foldr .seq .eps

/-- `?`, `testcases/parser/baseparser/functestcase_lexer.go:115` -/
def Bx.opt (r : Bx) : Bx := .alt .eps r

/-- `+`, `testcases/parser/baseparser/functestcase_lexer.go:115` -/
def Bx.plus (r : Bx) : Bx := .seq r (.star r)

/-- one byte, `testcases/parser/baseparser/functestcase_lexer.go:115` -/
def Bx.chr (c : UInt8) : Bx := .set (· == c)

/-- a capital letter or the small one, `testcases/parser/baseparser/functestcase_lexer.go:115` -/
def Bx.letter (c : UInt8) : Bx := .set fun b => b == c || b == c + 32

/-! ## Rules of the tokens of values -/

/-- `[0-9]`, rules `Digit` and others, `testcases/parser/baseparser/functestcase_lexer.go:115-703` -/
def rxDigit : Bx := .set fun b => 48 ≤ b && b ≤ 57

/-- `[+-]`, `testcases/parser/baseparser/functestcase_lexer.go:115-703` -/
def rxSign : Bx := .set fun b => b == 43 || b == 45

/-- `NaN`, `testcases/parser/baseparser/functestcase_lexer.go:115-703` -/
def rxNan : Bx := .seqs [.letter 78, .letter 65, .letter 78]

/-- `IntegerLiteral` with `Int`: no leading zeros, `testcases/parser/baseparser/functestcase_lexer.go:115-703` -/
def rxInteger : Bx :=
  .seq rxSign.opt (.alt (.seq (.set fun b => 49 ≤ b && b ≤ 57) (.star rxDigit)) (.chr 48))

/-- `DecimalLiteral`, `testcases/parser/baseparser/functestcase_lexer.go:115-703` -/
def rxDecimal : Bx := .seqs [rxSign.opt, rxDigit.plus, Bx.opt (.seq (.chr 46) rxDigit.plus)]

/-- `FloatLiteral`: digits with a fraction and an exponent, `inf`, `snan`,
`testcases/parser/baseparser/functestcase_lexer.go:115-703` -/
def rxFloat : Bx :=
  .alt (.seqs [rxSign.opt, rxDigit.plus, Bx.opt (.seq (.chr 46) (.star rxDigit)),
      Bx.opt (.seqs [.letter 69, rxSign.opt, rxDigit.plus])])
    (.alt (.seqs [rxSign.opt, .letter 73, .letter 78, .letter 70])
      (.seqs [.letter 83, .letter 78, .letter 65, .letter 78]))

/-- `BooleanLiteral`, `testcases/parser/baseparser/functestcase_lexer.go:115-703` -/
def rxBoolean : Bx :=
  .alt (.seqs [.letter 84, .letter 82, .letter 85, .letter 69])
    (.seqs [.letter 70, .letter 65, .letter 76, .letter 83, .letter 69])

/-- `NullLiteral`, `testcases/parser/baseparser/functestcase_lexer.go:115-703` -/
def rxNull : Bx := .seqs [.letter 78, .letter 85, .letter 76, .letter 76]

/-- year, month and day, `testcases/parser/baseparser/functestcase_lexer.go:115-703` -/
def rxDatePart : Bx :=
  .seqs [rxDigit, rxDigit, rxDigit, rxDigit, .chr 45, rxDigit, rxDigit, .chr 45, rxDigit, rxDigit]

/-- hour, minute, second and fraction, `testcases/parser/baseparser/functestcase_lexer.go:115-703` -/
def rxTimePart : Bx :=
  .seqs [rxDigit, rxDigit, .chr 58, rxDigit, rxDigit, .chr 58, rxDigit, rxDigit, Bx.opt (.seq (.chr 46) rxDigit.plus)]

/-- between quotes, `testcases/parser/baseparser/functestcase_lexer.go:115-703` -/
def rxQuoted (rs : List Bx) : Bx := .seq (.chr 39) (.seqs (rs ++ [.chr 39]))

/-- `TimestampTzLiteral`, `testcases/parser/baseparser/functestcase_lexer.go:115-703` -/
def rxTimestampTz : Bx :=
  rxQuoted [rxDatePart, .letter 84, rxTimePart, rxSign, rxDigit, rxDigit, .chr 58, rxDigit, rxDigit]

/-- `TimestampLiteral`, `testcases/parser/baseparser/functestcase_lexer.go:115-703` -/
def rxTimestamp : Bx := rxQuoted [rxDatePart, .letter 84, rxTimePart]

/-- `TimeLiteral`, `testcases/parser/baseparser/functestcase_lexer.go:115-703` -/
def rxTime : Bx := rxQuoted [rxTimePart]

/-- `DateLiteral`, `testcases/parser/baseparser/functestcase_lexer.go:115-703` -/
def rxDate : Bx := rxQuoted [rxDatePart]

/-- `IntervalYearLiteral`, `testcases/parser/baseparser/functestcase_lexer.go:115-703` -/
def rxIntervalYear : Bx :=
  rxQuoted [.letter 80, .alt (.seqs [rxInteger, .letter 89, Bx.opt (.seq rxInteger (.letter 77))])
    (.seq rxInteger (.letter 77))]

/-- `TimeInterval`: hours, minutes and seconds with at least one of them,
`testcases/parser/baseparser/functestcase_lexer.go:115-703` -/
def rxTimeInterval : Bx :=
  .alt (.seqs [rxInteger, .letter 72, Bx.opt (.seq rxInteger (.letter 77)), Bx.opt (.seq rxDecimal (.letter 83))])
    (.alt (.seqs [rxInteger, .letter 77, Bx.opt (.seq rxDecimal (.letter 83))]) (.seq rxDecimal (.letter 83)))

/-- `IntervalDayLiteral`, `testcases/parser/baseparser/functestcase_lexer.go:115-703` -/
def rxIntervalDay : Bx :=
  rxQuoted [.letter 80, .alt (.seqs [rxInteger, .letter 68, Bx.opt (.seq (.letter 84) rxTimeInterval)])
    (.seq (.letter 84) rxTimeInterval)]

/-- `IntervalCompoundLiteral`, `testcases/parser/baseparser/functestcase_lexer.go:115-703` -/
def rxIntervalCompound : Bx :=
  rxQuoted [.letter 80, Bx.opt (.seq rxInteger (.letter 89)), Bx.opt (.seq rxInteger (.letter 77)),
    Bx.opt (.seq rxInteger (.letter 68)), Bx.opt (.seq (.letter 84) rxTimeInterval)]

/-- `StringLiteral`: an escaped character, two quotes, or anything but a quote and a backslash,
`testcases/parser/baseparser/functestcase_lexer.go:115-703` -/
def rxString : Bx :=
  .seqs [.chr 39, .star (.alt (.seq (.chr 92) (.set fun _ => true))
    (.alt (.seq (.chr 39) (.chr 39)) (.set fun b => b != 39 && b != 92))), .chr 39]

/-- The kinds of tokens of values, `testcases/parser/baseparser/functestcase_lexer.go:34-59` -/
inductive TcTok where
  | nan | integer | decimal | float | boolean | timestampTz | timestamp | time | date | intervalYear | intervalDay
  | intervalCompound | null | string
  deriving DecidableEq, Repr

/-- The rules in the order of the lexer, `testcases/parser/baseparser/functestcase_lexer.go:64-111` -/
def tokRules : List (TcTok × Bx) :=
  [(.nan, rxNan), (.integer, rxInteger), (.decimal, rxDecimal), (.float, rxFloat), (.boolean, rxBoolean),
    (.timestampTz, rxTimestampTz), (.timestamp, rxTimestamp), (.time, rxTime), (.date, rxDate),
    (.intervalYear, rxIntervalYear), (.intervalDay, rxIntervalDay), (.intervalCompound, rxIntervalCompound),
    (.null, rxNull), (.string, rxString)]

/-- The kind of the token that a text is. Of the rules that match, the lexer (external) takes the first one,
`testcases/parser/baseparser/functestcase_lexer.go:115`. Simplification: the text is given as a whole; that it is the
longest match at its place depends on what follows. The other tokens (words and signs) are left out. -/
def tokKind (s : Bytes) : Option TcTok := (tokRules.find? fun r => r.2.run s).map (·.1)

/-! ## Arguments -/

/-- The words for types in their long form, `testcases/parser/baseparser/functestcase_lexer.go:52-59`; the lexer
ignores case. -/
def Prim.word : Prim → String
  | .boolean => "boolean"
  | .i8 => "i8"
  | .i16 => "i16"
  | .i32 => "i32"
  | .i64 => "i64"
  | .fp32 => "fp32"
  | .fp64 => "fp64"
  | .string => "string"
  | .binary => "binary"
  | .timestamp => "timestamp"
  | .date => "date"
  | .time => "time"
  | .timestampTz => "timestamp_tz"
  | .intervalYear => "interval_year"
  | .uuid => "uuid"

/-- the same for types with a length, `testcases/parser/baseparser/functestcase_lexer.go:52-59` -/
def Fixed.word : Fixed → String
  | .fixedChar => "fixedchar"
  | .varChar => "varchar"
  | .fixedBinary => "fixedbinary"

/-- the same for types with a precision, `testcases/parser/baseparser/functestcase_lexer.go:52-59` -/
def Prec.word : Prec → String
  | .intervalDay => "interval_day"
  | .precisionTime => "precision_time"
  | .precisionTimestamp => "precision_timestamp"
  | .precisionTimestampTz => "precision_timestamp_tz"

/-- a text of ASCII characters, `testcases/parser/baseparser/functestcase_lexer.go:115` -/
def asciiText (b : Bytes) : String := String.ofList (b.map fun b => Char.ofNat b.toNat)

/-- the token `?`, `testcases/parser/baseparser/functestcase_lexer.go:59` -/
def queryMark : Bool → String
  | true => "?"
  | false => ""

/-- A type as a text: the rules `intType` to `listType`, `testcases/parser/baseparser/functestcase_parser.go:78-98`
and the automaton after it. One way to write it of several: long words in small letters and no white space. -/
def TcType.text : TcType → String
  | .prim k q => k.word ++ queryMark q
  | .decimal q none => "decimal" ++ queryMark q
  | .decimal q (some (p, s)) => "decimal" ++ queryMark q ++ "<" ++ asciiText p ++ "," ++ asciiText s ++ ">"
  | .prec k q none => k.word ++ queryMark q
  | .prec k q (some p) => k.word ++ queryMark q ++ "<" ++ asciiText p ++ ">"
  | .fixed k q l => k.word ++ queryMark q ++ "<" ++ asciiText l ++ ">"
  | .list q e => "list" ++ queryMark q ++ "<" ++ e.text ++ ">"
  | .other => ""

/-- Parameters of types are tokens `IntegerLiteral` (rule `numericParameter`),
`testcases/parser/baseparser/functestcase_parser.go:78-98` -/
def TcType.parametersLex : TcType → Bool
  | .prim _ _ => true
  | .decimal _ none => true
  | .decimal _ (some (p, s)) => tokKind p == some .integer && tokKind s == some .integer
  | .prec _ _ none => true
  | .prec _ _ (some p) => tokKind p == some .integer
  | .fixed _ _ l => tokKind l == some .integer
  | .list _ e => e.parametersLex
  | .other => false

/-- `strings.ToLower`, `testcases/parser/visitor.go:450,805`, of ASCII (external) -/
def lowerBytes (b : Bytes) : Bytes := b.map fun b => if 65 ≤ b && b ≤ 90 then b + 32 else b

/-- An argument that is a token, `::` and a type: the rules `nullArg` to `precisionTimestampTZArg`,
`testcases/parser/baseparser/functestcase_parser.go:78-98` and the automaton after it; which token goes with which
type. Compound intervals are left out. `numericLiteral` is one of three tokens or `NaN`. -/
def tcArgOf (text : Bytes) (t : TcType) : Option TcArg :=
  match tokKind text, t with
  | some .null, t => some (.null t)
  | some .integer, .prim .i8 q => some (.int .i8 q text)
  | some .integer, .prim .i16 q => some (.int .i16 q text)
  | some .integer, .prim .i32 q => some (.int .i32 q text)
  | some .integer, .prim .i64 q => some (.int .i64 q text)
  | some .integer, .prim .fp32 q => some (.float .fp32 q text)
  | some .integer, .prim .fp64 q => some (.float .fp64 q text)
  | some .integer, .decimal q ps => some (.decimal q ps text)
  | some .decimal, .prim .fp32 q => some (.float .fp32 q text)
  | some .decimal, .prim .fp64 q => some (.float .fp64 q text)
  | some .decimal, .decimal q ps => some (.decimal q ps text)
  | some .float, .prim .fp32 q => some (.float .fp32 q text)
  | some .float, .prim .fp64 q => some (.float .fp64 q text)
  | some .float, .decimal q ps => some (.decimal q ps text)
  | some .nan, .prim .fp32 q => some (.float .fp32 q text)
  | some .nan, .prim .fp64 q => some (.float .fp64 q text)
  | some .nan, .decimal q ps => some (.decimal q ps text)
  | some .boolean, .prim .boolean q => some (.bool q (lowerBytes text == [116, 114, 117, 101]))
  | some .string, .prim .string q => some (.string q text)
  | some .string, .fixed k q l => some (.fixed k q l text)
  | some .date, .prim .date q => some (.date q text)
  | some .time, .prim .time q => some (.time q text)
  | some .time, .prec .precisionTime q p => some (.prec .precisionTime q p text)
  | some .timestamp, .prim .timestamp q => some (.timestamp q text)
  | some .timestamp, .prec .precisionTimestamp q p => some (.prec .precisionTimestamp q p text)
  | some .timestampTz, .prim .timestampTz q => some (.timestampTz q text)
  | some .timestampTz, .prec .precisionTimestampTz q p => some (.prec .precisionTimestampTz q p text)
  | some .intervalYear, .prim .intervalYear q => some (.intervalYear q text)
  | some .intervalDay, .prec .intervalDay q p => some (.intervalDay q p text)
  | _, _ => none

/-- A literal without a type: the rule `literal`, `testcases/parser/baseparser/functestcase_parser.go:78-98` and the
automaton after it; identifiers and other tokens are no literals. -/
def tcLitOf (text : Bytes) : Option TcLit :=
  match tokKind text with
  | some .null => some .null
  | some .integer => some (.numeric text)
  | some .decimal => some (.numeric text)
  | some .float => some (.numeric text)
  | some .nan => some (.numeric text)
  | some .boolean => some (.bool (lowerBytes text == [116, 114, 117, 101]))
  | some .string => some (.string text)
  | some .date => some (.date text)
  | some .time => some (.time text)
  | some .timestamp => some (.timestamp text)
  | some .timestampTz => some (.timestampTz text)
  | some .intervalYear => some (.intervalYear text)
  | some .intervalDay => some (.intervalDay text)
  | some .intervalCompound => some (.intervalCompound text)
  | none => none

/-- A list argument of literals: `[`, literals with commas between them, `]`, `::` and a list type; the rules `listArg`
and `literalList`, `testcases/parser/baseparser/functestcase_parser.go:78-98` and the automaton after it. Lists in
lists are left out. -/
def tcListArgOf (texts : List Bytes) (t : TcType) : Option TcArg :=
  match t with
  | .list q e => (texts.mapM tcLitOf).map fun ls => .list q e (ls.map .lit)
  | _ => none

end Verif
