import Verif.Model.LocalTypes
/-!
# Reading type expressions

Models `ParseType` (`types/parser/parse.go:44-76`): the lexer and the parser generated from the
Substrait grammar (`types/parser/baseparser/`), and the visitor (`types/parser/visitor.go`).

The grammar is taken from the generated code: the parser's methods, and for the lexer, which has no
methods of its own, the serialised automaton (`substraittype_lexer.go:87-388`). What ANTLR does with
them is external: the lexer takes the longest match, of several the one of the first rule, and drops
a character that starts no token (`ParseType` adds its error listener to the parser only); the parser
takes at each decision the first alternative with which the whole input can be read, here the first
reading in the order of the alternatives. It is `none` when there is no reading at all; then the
error listener of the parser is told.

Simplification: the parser runs with prediction mode SLL, which may decide differently from this
where the decision depends on the calling rule; no decision of this grammar does.
-/

namespace Verif

/-! ## Tokens -/

/-- A token: keywords and signs by their text in lower case
(`types/parser/baseparser/substraittype_lexer.go:45-57`), `AnyVar`, `Number`, `Identifier` by their text,
and `Newline`. -/
inductive GTok where
  | key (s : String)
  | sign (s : String)
  | anyVar (s : List Char)
  | num (s : List Char)
  | ident (s : List Char)
  | newline
  deriving DecidableEq, Repr

/-- the keywords, `types/parser/baseparser/substraittype_lexer.go:46-56` (tokens 4 to 52, 78 and 79, without
`U!`) -/
def typeKeywords : List String :=
  ["if", "then", "else", "func", "boolean", "i8", "i16", "i32", "i64", "fp32", "fp64", "string", "binary",
   "timestamp", "timestamp_tz", "date", "time", "interval_year", "interval_day", "interval_compound",
   "uuid", "decimal", "precision_time", "precision_timestamp", "precision_timestamp_tz", "fixedchar",
   "varchar", "fixedbinary", "struct", "nstruct", "list", "map", "bool", "str", "vbin", "ts", "tstz",
   "iyear", "iday", "icompound", "dec", "pt", "pts", "ptstz", "fchar", "vchar", "fbin", "any", "and", "or"]

/-- the characters that start an `Identifier` (the sets at states 655 and 656 of
`types/parser/baseparser/substraittype_lexer.go:87-388`) -/
def isIdStart (c : Char) : Bool :=
  c = '$' || c = '_' || (decide ('A' ≤ c) && decide (c ≤ 'Z')) || (decide ('a' ≤ c) && decide (c ≤ 'z'))

/-- a decimal digit (rule `Digit` of `types/parser/baseparser/substraittype_lexer.go:87-388`) -/
def isDigitChar (c : Char) : Bool := decide ('0' ≤ c) && decide (c ≤ '9')

/-- the characters that continue an `Identifier` (rule `Identifier` of
`types/parser/baseparser/substraittype_lexer.go:87-388`) -/
def isIdChar (c : Char) : Bool := isIdStart c || isDigitChar c

/-- The token of a word: keywords do not depend on case and come before `AnyVar` and `Identifier`
(the order of the rules, `types/parser/baseparser/substraittype_lexer.go:70-84`). -/
def wordTok (w : List Char) : GTok :=
  let l := w.map Char.toLower
  if String.ofList l ∈ typeKeywords then .key (String.ofList l)
  else match l with
    | ['a', 'n', 'y', d] => if isDigitChar d then .anyVar w else .ident w
    | _ => .ident w

/-- the rest after a `BlockComment` whose `/*` is read (rule `BlockComment` of
`types/parser/baseparser/substraittype_lexer.go:87-388`): one character other than `*`, or stars and one
character other than `*` and `/`; then stars and `/` -/
def blockComment (cs : List Char) : Option (List Char) :=
  match cs.dropWhile (· = '*') with
  | [] => none
  | c :: r =>
      if cs.head? = some '*' && c = '/' then none
      else match r.takeWhile (· = '*'), r.dropWhile (· = '*') with
        | _ :: _, '/' :: r => some r
        | _, _ => none

/-- The next token (`none` for white space, comments and characters that start no token) and the rest
of the input: the longest match among the rules of
`types/parser/baseparser/substraittype_lexer.go:70-84,87-388`. -/
def nextTok (c : Char) (cs : List Char) : Option GTok × List Char :=
  if isIdStart c then
    let rest := cs.dropWhile isIdChar
    match (c :: cs.takeWhile isIdChar).map Char.toLower, rest with
    | ['u'], '!' :: r => (some (.key "u!"), r)
    | _, _ => (some (wordTok (c :: cs.takeWhile isIdChar)), rest)
  else if c = '0' then (some (.num [c]), cs)
  else if isDigitChar c then
    (some (.num (c :: cs.takeWhile isDigitChar)), cs.dropWhile isDigitChar)
  else match c, cs with
    | '-', '>' :: r => (some (.sign "->"), r)
    | '-', '0' :: r => (some (.num ['-', '0']), r)
    | '-', d :: r =>
        if isDigitChar d then (some (.num ('-' :: d :: r.takeWhile isDigitChar)), r.dropWhile isDigitChar)
        else (some (.sign "-"), d :: r)
    | ':', ':' :: r => (some (.sign "::"), r)
    | ':', '=' :: r => (some (.sign ":="), r)
    | '!', '=' :: r => (some (.sign "!="), r)
    | '>', '=' :: r => (some (.sign ">="), r)
    | '<', '=' :: r => (some (.sign "<="), r)
    | '/', '/' :: r => (none, r.dropWhile fun c => c ≠ '\n' && c ≠ '\r')
    | '/', '*' :: r =>
        match blockComment r with
        | some r => (none, r)
        | none => (some (.sign "/"), '*' :: r)
    | '\r', '\n' :: r => (some .newline, r)
    | '\n', r => (some .newline, r)
    | c, r =>
        if c ∈ ['-', ':', '!', '>', '<', '/', '+', '*', '%', '=', '(', ')', '[', ']', ',', '?', '#', '.'] then
          (some (.sign (String.singleton c)), r)
        else (none, r)

/-- the tokens of a text; the first argument bounds the number of tokens (the length of the text is
enough), `antlr.NewCommonTokenStream`, `types/parser/parse.go:47` -/
def lexN : Nat → List Char → List GTok
  | 0, _ => []
  | _ + 1, [] => []
  | n + 1, c :: cs =>
      match nextTok c cs with
      | (some t, r) => t :: lexN n r
      | (none, r) => lexN n r

/-- the tokens of a text, `types/parser/parse.go:45-47` -/
def lexText (cs : List Char) : List GTok := lexN cs.length cs

/-! ## What the visitor returns -/

/-- A value that the visitor returns for an expression (`types/parser/visitor.go:22-27`): a
`FuncDefArgType`, a `*LiteralNumber`, a `StringParameter`, another `types.Expr`; `bad` when it panicked (the
panic is caught, `types/parser/parse.go:67`, and reported, `types/parser/util/error_listener.go:70-84`). -/
inductive TVal where
  | type (t : FTy)
  | num (v : Int64)
  | name (s : String)
  | expr (e : DExpr)
  | bad

/-- the assertion `.(types.Expr)`, e.g. `types/parser/visitor.go:57`; types are no expressions -/
def TVal.asExpr : TVal → Option DExpr
  | .num v => some (.num v)
  | .name s => some (.name s)
  | .expr e => some e
  | .type _ => none
  | .bad => none

/-- the assertion `.(types.FuncDefArgType)`, e.g. `types/parser/visitor.go:314` -/
def TVal.asType : TVal → Option FTy
  | .type t => some t
  | _ => none

/-- `strconv.ParseInt(text, 10, 0)`, `types/parser/visitor.go:46,378`; an error is reported to a nil
listener and panics -/
def numOf (s : List Char) : Option Int :=
  match atoi (s.map charByte) with
  | .ok v => some v
  | _ => none

/-- `VisitLiteralNumber`, `types/parser/visitor.go:45-52` -/
def literalNumber (s : List Char) : TVal :=
  match numOf s with
  | some v => .num (Int64.ofInt v)
  | none => .bad

/-- `VisitNumericLiteral`, `types/parser/visitor.go:377-384`, with the conversion to int32 -/
def numericLiteral (s : List Char) : Option IntParam :=
  match numOf s with
  | some v => some (.concrete (Int32.ofInt v))
  | none => none

/-- `NullabilityNullable` with a question mark, `NullabilityRequired` without, e.g.
`types/parser/visitor.go:100-103` -/
def markNullability (q : Bool) : Nullability := if q then 1 else 2

/-- `VisitBinaryExpr`, `types/parser/visitor.go:65-71` -/
def binaryExpr (op : DOp) (l r : TVal) : TVal :=
  match l.asExpr, r.asExpr with
  | some a, some b => .expr (.bin op a b)
  | _, _ => .bad

/-- `VisitIfExpr` and `VisitTernary`, `types/parser/visitor.go:73-79,87-94` -/
def ifExpr (ternary : Bool) (c t e : TVal) : TVal :=
  match c.asExpr, t.asExpr, e.asExpr with
  | some a, some b, some d => .expr (.ite ternary a b d)
  | _, _, _ => .bad

/-- `VisitNotExpr`, `types/parser/visitor.go:81-85` -/
def notExpr (e : TVal) : TVal :=
  match e.asExpr with
  | some a => .expr (.not a)
  | none => .bad

/-- all values pass an assertion, the loops `types/parser/visitor.go:56-58,308-310,360-363` -/
def allOf (f : α → Option β) : List α → Option (List β)
  | [] => some []
  | v :: vs =>
      match f v, allOf f vs with
      | some b, some bs => some (b :: bs)
      | _, _ => none

/-- `VisitFunctionCall`, `types/parser/visitor.go:54-63` -/
def functionCall (f : List Char) (args : List TVal) : TVal :=
  match allOf TVal.asExpr args with
  | some es => .expr (.call (String.ofList (f.map Char.toLower)) es)
  | none => .bad

/-- a parameter of a user-defined type, `types/parser/visitor.go:191-206`; the conversion to int32 wraps -/
def udtParam : TVal → Option FParam
  | .type t => some (.dataType t)
  | .num v => some (.integer v.toInt32)
  | .name s => some (.string s)
  | .expr _ => none
  | .bad => none

/-- `VisitUserDefined`, `types/parser/visitor.go:184-209` -/
def userDefined (q : Bool) (name : List Char) (ps : List TVal) : TVal :=
  match allOf udtParam ps with
  | some ps => .type (.udt (markNullability q) 0 (String.ofList name) ps)
  | none => .bad

/-- `VisitStruct`, `types/parser/visitor.go:302-312` -/
def structType (q : Bool) (vs : List TVal) : TVal :=
  match allOf TVal.asType vs with
  | some ts => .type (.struct (markNullability q) ts)
  | none => .bad

/-- `VisitList`, `types/parser/visitor.go:314-321` -/
def listType (q : Bool) (v : TVal) : TVal :=
  match v.asType with
  | some t => .type (.list (markNullability q) t)
  | none => .bad

/-- `VisitMap`, `types/parser/visitor.go:327-338` -/
def mapType (q : Bool) (k v : TVal) : TVal :=
  match k.asType, v.asType with
  | some k, some v => .type (.map (markNullability q) k v)
  | _, _ => .bad

/-- Function parameters: `VisitSingleFuncParam` and `VisitFuncParamsWithParens`,
`types/parser/visitor.go:355-365`; the first yields no parameter when its value is no type
(`types/parser/visitor.go:341-348`). -/
inductive PFunc where
  | single (v : TVal)
  | parens (vs : List TVal)

/-- the parameter types, `types/parser/visitor.go:341-351,360-363`, `none` when the visitor panics -/
def PFunc.types : PFunc → Option (List FTy)
  | .single (.type t) => some [t]
  | .single .bad => none
  | .single _ => some []
  | .parens vs => allOf TVal.asType vs

/-- `VisitFunc`, `types/parser/visitor.go:340-364` -/
def funcType (q : Bool) (ps : PFunc) (r : TVal) : TVal :=
  match ps.types, r.asType with
  | some ps, some r => .type (.func (markNullability q) ps r)
  | _, _ => .bad

/-- the types with one parameter, `types/parser/visitor.go:211-235,249-300` -/
def singleType (k : Single) (q : Bool) (p : Option IntParam) : TVal :=
  match p with
  | some p => .type (.single k (markNullability q) p)
  | none => .bad

/-- `VisitDecimal`, `types/parser/visitor.go:237-247` -/
def decimalType (q : Bool) (p s : Option IntParam) : TVal :=
  match p, s with
  | some p, some s => .type (.decimal (markNullability q) p s)
  | _, _ => .bad

/-- one assignment of a derivation, `types/parser/visitor.go:397-404` -/
def assignmentOf (a : List Char × TVal) : Option (String × DExpr) :=
  match a.2.asExpr with
  | some e => some (String.ofList a.1, e)
  | none => none

/-- `VisitMultilineDefinition`, `types/parser/visitor.go:395-409` -/
def multilineDefinition (as : List (List Char × TVal)) (final : TVal) : TVal :=
  match allOf assignmentOf as, final.asType with
  | some as, some t => .type (.derivation as t)
  | _, _ => .bad

/-! ## The grammar -/

/-- all readings of a beginning of the tokens, in the order of the alternatives, with the tokens left -/
abbrev Readings (α : Type) := List (α × List GTok)

/-- one sign -/
def eatSign (s : String) : List GTok → List (List GTok)
  | t :: ts => if t = .sign s then [ts] else []
  | [] => []

/-- `QMark?` -/
def optMark : List GTok → Readings Bool
  | .sign "?" :: ts => [(true, ts), (false, .sign "?" :: ts)]
  | ts => [(false, ts)]

/-- `Newline*` -/
def newlines : List GTok → List (List GTok)
  | .newline :: ts => newlines ts ++ [.newline :: ts]
  | ts => [ts]

/-- `Newline+` -/
def newlines1 : List GTok → List (List GTok)
  | .newline :: ts => newlines ts
  | _ => []

/-- the keywords of `scalarType`, `types/parser/baseparser/substraittype_parser.go:1319-1541`, with the
values of the visitor, `types/parser/visitor.go:124-182` -/
def primOfKey : String → Option Prim
  | "boolean" => some .boolean
  | "i8" => some .i8
  | "i16" => some .i16
  | "i32" => some .i32
  | "i64" => some .i64
  | "fp32" => some .fp32
  | "fp64" => some .fp64
  | "string" => some .string
  | "binary" => some .binary
  | "timestamp" => some .timestamp
  | "timestamp_tz" => some .timestampTz
  | "date" => some .date
  | "time" => some .time
  | "interval_year" => some .intervalYear
  | "uuid" => some .uuid
  | _ => none

/-- the keywords of the types with one parameter, `types/parser/baseparser/substraittype_parser.go:2997-4118`,
with the values of the visitor, `types/parser/visitor.go:211-300` -/
def singleOfKey : String → Option Single
  | "fixedchar" => some (.fixed .fixedChar)
  | "varchar" => some (.fixed .varChar)
  | "fixedbinary" => some (.fixed .fixedBinary)
  | "interval_day" => some (.prec .intervalDay)
  | "precision_time" => some (.prec .precisionTime)
  | "precision_timestamp" => some (.prec .precisionTimestamp)
  | "precision_timestamp_tz" => some (.prec .precisionTimestampTz)
  | _ => none

/-- the operators of binary expressions, `types/parser/baseparser/substraittype_parser.go:6318`, with
`GetBinaryOpType`, `types/type_derivation.go:74-106` -/
def binaryOpOf : GTok → Option DOp
  | .sign "+" => some .plus
  | .sign "-" => some .minus
  | .sign "*" => some .multiply
  | .sign "/" => some .divide
  | .sign "<" => some .lt
  | .sign "<=" => some .lte
  | .sign ">" => some .gt
  | .sign ">=" => some .gte
  | .sign "=" => some .eq
  | .sign "!=" => some .neq
  | .key "and" => some .and
  | .key "or" => some .or
  | _ => none

section
variable (expr : Nat → List GTok → Readings TVal)

/-- `numericParameter`, `types/parser/baseparser/substraittype_parser.go:4508-4570`, with
`types/parser/visitor.go:377-393`; the value of an expression is no `IntegerParameter` -/
def numericParameter (ts : List GTok) : Readings (Option IntParam) :=
  (match ts with
    | .num s :: r => [(numericLiteral s, r)]
    | .ident s :: r => [(some (.var (String.ofList s)), r)]
    | _ => []) ++ (expr 0 ts).map fun (_, r) => (none, r)

/-- `(Comma expr)*`, e.g. `types/parser/baseparser/substraittype_parser.go:4257-4277`; the first argument
bounds the number of iterations -/
def moreExprs : Nat → List GTok → Readings (List TVal)
  | 0, ts => [([], ts)]
  | n + 1, ts =>
      ((eatSign "," ts).flatMap fun r => (expr 0 r).flatMap fun (v, r) =>
        (moreExprs n r).map fun (vs, r) => (v :: vs, r)) ++ [([], ts)]

/-- `expr (Comma expr)*` -/
def someExprs (n : Nat) (ts : List GTok) : Readings (List TVal) :=
  (expr 0 ts).flatMap fun (v, r) => (moreExprs expr n r).map fun (vs, r) => (v :: vs, r)

/-- `(Comma Identifier expr)*` of `nstruct`, whose visitor panics (`types/parser/visitor.go:323-325`) -/
def moreFields : Nat → List GTok → List (List GTok)
  | 0, ts => [ts]
  | n + 1, ts =>
      ((eatSign "," ts).flatMap fun r =>
        match r with
        | .ident _ :: r => (expr 0 r).flatMap fun (_, r) => moreFields n r
        | _ => []) ++ [ts]

/-- `funcParams`, `types/parser/baseparser/substraittype_parser.go:4221-4310` -/
def funcParams (n : Nat) (ts : List GTok) : Readings PFunc :=
  ((expr 0 ts).map fun (v, r) => (.single v, r)) ++
    ((eatSign "(" ts).flatMap fun r => (someExprs expr n r).flatMap fun (vs, r) =>
      (eatSign ")" r).map fun r => (.parens vs, r))

/-- `parameterizedType` after its keyword, `types/parser/baseparser/substraittype_parser.go:2997-4118`;
`interval_compound` has no visitor method and `nstruct`'s panics -/
def parameterizedType (n : Nat) (k : String) (ts : List GTok) : Readings TVal :=
  match singleOfKey k with
  | some s =>
      (optMark ts).flatMap fun (q, r) => (eatSign "<" r).flatMap fun r =>
      (numericParameter expr r).flatMap fun (p, r) => (eatSign ">" r).map fun r => (singleType s q p, r)
  | none =>
    match k with
    | "interval_compound" =>
        (optMark ts).flatMap fun (_, r) => (eatSign "<" r).flatMap fun r =>
        (numericParameter expr r).flatMap fun (_, r) => (eatSign ">" r).map fun r => (.bad, r)
    | "decimal" =>
        (optMark ts).flatMap fun (q, r) => (eatSign "<" r).flatMap fun r =>
        (numericParameter expr r).flatMap fun (p, r) => (eatSign "," r).flatMap fun r =>
        (numericParameter expr r).flatMap fun (s, r) => (eatSign ">" r).map fun r => (decimalType q p s, r)
    | "struct" =>
        (optMark ts).flatMap fun (q, r) => (eatSign "<" r).flatMap fun r =>
        (someExprs expr n r).flatMap fun (vs, r) => (eatSign ">" r).map fun r => (structType q vs, r)
    | "nstruct" =>
        (optMark ts).flatMap fun (_, r) => (eatSign "<" r).flatMap fun r =>
        match r with
        | .ident _ :: r => (expr 0 r).flatMap fun (_, r) => (moreFields expr n r).flatMap fun r =>
            (eatSign ">" r).map fun r => (.bad, r)
        | _ => []
    | "list" =>
        (optMark ts).flatMap fun (q, r) => (eatSign "<" r).flatMap fun r =>
        (expr 0 r).flatMap fun (v, r) => (eatSign ">" r).map fun r => (listType q v, r)
    | "map" =>
        (optMark ts).flatMap fun (q, r) => (eatSign "<" r).flatMap fun r =>
        (expr 0 r).flatMap fun (k, r) => (eatSign "," r).flatMap fun r =>
        (expr 0 r).flatMap fun (v, r) => (eatSign ">" r).map fun r => (mapType q k v, r)
    | "func" =>
        (optMark ts).flatMap fun (q, r) => (eatSign "<" r).flatMap fun r =>
        (funcParams expr n r).flatMap fun (ps, r) => (eatSign "->" r).flatMap fun r =>
        (expr 0 r).flatMap fun (v, r) => (eatSign ">" r).map fun r => (funcType q ps v, r)
    | "u!" =>
        match ts with
        | .ident name :: r =>
            (optMark r).flatMap fun (q, r) =>
            ((eatSign "<" r).flatMap fun r => (someExprs expr n r).flatMap fun (vs, r) =>
              (eatSign ">" r).map fun r => (userDefined q name vs, r)) ++ [(userDefined q name [], r)]
        | _ => []
    | _ => []

/-- `typeDef`, `types/parser/baseparser/substraittype_parser.go:4898-4960`, with
`types/parser/visitor.go:96-122` -/
def typeDef (n : Nat) : List GTok → Readings TVal
  | .key "any" :: ts => (optMark ts).map fun (q, r) => (.type (.any (markNullability q) "any"), r)
  | .anyVar s :: ts =>
      (optMark ts).map fun (q, r) => (.type (.any (markNullability q) (String.ofList s)), r)
  | .key k :: ts =>
      match primOfKey k with
      | some p => (optMark ts).map fun (q, r) => (.type (.prim p (markNullability q) 0), r)
      | none => parameterizedType expr n k ts
  | _ => []

/-- `Identifier Eq expr Newline+`, `types/parser/baseparser/substraittype_parser.go:5936-5974` -/
def assignmentLine (ts : List GTok) : Readings (List Char × TVal) :=
  match ts with
  | .ident x :: r =>
      (eatSign "=" r).flatMap fun r => (expr 0 r).flatMap fun (v, r) =>
      (newlines1 r).map fun r => ((x, v), r)
  | _ => []

/-- the assignments after the first, `types/parser/baseparser/substraittype_parser.go:5982-6028` -/
def moreAssignments : Nat → List GTok → Readings (List (List Char × TVal))
  | 0, ts => [([], ts)]
  | n + 1, ts =>
      ((assignmentLine expr ts).flatMap fun (a, r) =>
        (moreAssignments n r).map fun (as, r) => (a :: as, r)) ++ [([], ts)]

/-- the alternatives of `expr` that do not start with an expression,
`types/parser/baseparser/substraittype_parser.go:5904-6271` -/
def primaryExpr (n : Nat) (ts : List GTok) : Readings TVal :=
  ((eatSign "(" ts).flatMap fun r => (expr 0 r).flatMap fun (v, r) =>
    (eatSign ")" r).map fun r => (v, r)) ++
  ((assignmentLine expr ts).flatMap fun (a, r) => (moreAssignments expr n r).flatMap fun (as, r) =>
    (typeDef expr n r).flatMap fun (t, r) =>
    (newlines r).map fun r => (multilineDefinition (a :: as) t, r)) ++
  typeDef expr n ts ++
  (match ts with
    | .num s :: r => [(literalNumber s, r)]
    | .ident x :: r =>
        ((optMark r).map fun (_, r) => (.name (String.ofList x), r)) ++
        ((eatSign "(" r).flatMap fun r =>
          ((someExprs expr n r).flatMap fun (vs, r) => (eatSign ")" r).map fun r => (functionCall x vs, r)) ++
          (eatSign ")" r).map fun r => (functionCall x [], r))
    | .key "if" :: r =>
        (expr 0 r).flatMap fun (c, r) =>
        match r with
        | .key "then" :: r =>
            (expr 0 r).flatMap fun (t, r) =>
            match r with
            | .key "else" :: r => (expr 3 r).map fun (e, r) => (ifExpr false c t e, r)
            | _ => []
        | _ => []
    | .sign "!" :: r => (expr 2 r).map fun (e, r) => (notExpr e, r)
    | _ => [])

/-- the loop over the alternatives of `expr` that start with an expression,
`types/parser/baseparser/substraittype_parser.go:6276-6390`; the first argument bounds the number of
iterations, `p` is the precedence -/
def exprLoop (p : Nat) : Nat → TVal → List GTok → Readings TVal
  | 0, v, ts => [(v, ts)]
  | n + 1, v, ts =>
      (match ts with
        | [] => []
        | t :: r =>
            (match binaryOpOf t with
              | some op =>
                  if p ≤ 4 then (expr 5 r).flatMap fun (w, r) => exprLoop p n (binaryExpr op v w) r else []
              | none => []) ++
            (if t = .sign "?" ∧ p ≤ 1 then
                (expr 0 r).flatMap fun (a, r) => (eatSign ":" r).flatMap fun r =>
                (expr 2 r).flatMap fun (b, r) => exprLoop p n (ifExpr true v a b) r
              else [])) ++ [(v, ts)]
end

/-- `expr(p)`, `types/parser/baseparser/substraittype_parser.go:5884-6404`. The first argument bounds the
depth of the recursion: each level reads at least one token, so one more than the number of tokens is
enough. -/
def exprReadings : Nat → Nat → List GTok → Readings TVal
  | 0, _, _ => []
  | n + 1, p, ts =>
      (primaryExpr (exprReadings n) n ts).flatMap fun (v, r) => exprLoop (exprReadings n) p n v r

/-- `startRule`, `types/parser/baseparser/substraittype_parser.go:448-484`: the first reading of all tokens -/
def startRule (ts : List GTok) : Option TVal :=
  match (exprReadings (ts.length + 1) 0 ts).find? fun r => r.2.isEmpty with
  | some (v, _) => some v
  | none => none

/-- `ParseType`, `types/parser/parse.go:44-76` -/
def parseType (s : String) : Res FTy :=
  match startRule (lexText s.toList) with
  | some (.type t) => .ok t
  | _ => .err

end Verif
