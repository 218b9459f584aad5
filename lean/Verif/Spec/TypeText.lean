import Verif.Model.FuncTypes
/-!
# Which type expressions have a text of their own

The vocabulary for the claims about reading and writing type expressions.
-/

namespace Verif

/-- the reserved words of the type grammar -/
def reservedWords : List String :=
  ["and", "any", "binary", "bool", "boolean", "date", "dec", "decimal", "else", "fbin", "fchar", "fixedbinary",
   "fixedchar", "fp32", "fp64", "func", "i16", "i32", "i64", "i8", "icompound", "iday", "if",
   "interval_compound", "interval_day", "interval_year", "iyear", "list", "map", "nstruct", "or",
   "precision_time", "precision_timestamp", "precision_timestamp_tz", "pt", "pts", "ptstz", "str", "string",
   "struct", "then", "time", "timestamp", "timestamp_tz", "ts", "tstz", "uuid", "varchar", "vbin", "vchar"]

/-- letters, underscore and dollar sign -/
def IsLetter (c : Char) : Prop :=
  ('a' ≤ c ∧ c ≤ 'z') ∨ ('A' ≤ c ∧ c ≤ 'Z') ∨ c = '_' ∨ c = '$'

/-- decimal digits -/
def IsDigit (c : Char) : Prop := '0' ≤ c ∧ c ≤ '9'

/-- A name: letters and digits, a letter first, and in no spelling a reserved word or `any` with a digit. -/
structure IsName (s : String) : Prop where
  first : ∃ c cs, s.toList = c :: cs ∧ IsLetter c ∧ ∀ d ∈ cs, IsLetter d ∨ IsDigit d
  free : String.ofList (s.toList.map Char.toLower) ∉ reservedWords
  notAny : ∀ d, IsDigit d → s.toList.map Char.toLower ≠ ['a', 'n', 'y', d]

/-- nullable or required -/
def IsMarked (n : Nullability) : Prop := n = 1 ∨ n = 2

/-- an integer, or the name of a variable -/
def IsIntParam : IntParam → Prop
  | .concrete _ => True
  | .var s => IsName s

/-- `any`, or `any` in some spelling with a digit -/
def IsAnyName (s : String) : Prop :=
  s = "any" ∨ ∃ d, IsDigit d ∧ s.toList.map Char.toLower = ['a', 'n', 'y', d]

mutual
/-- Type expressions that are nullable or required throughout, without type variations, whose names are
names of the grammar, whose structs have fields and whose function types have one parameter. -/
inductive Readable : FTy → Prop
  | prim (k n) : IsMarked n → Readable (.prim k n 0)
  | any (n s) : IsMarked n → IsAnyName s → Readable (.any n s)
  | single (k n p) : IsMarked n → IsIntParam p → Readable (.single k n p)
  | decimal (n p s) : IsMarked n → IsIntParam p → IsIntParam s → Readable (.decimal n p s)
  | list (n t) : IsMarked n → Readable t → Readable (.list n t)
  | map (n k v) : IsMarked n → Readable k → Readable v → Readable (.map n k v)
  | struct (n t ts) : IsMarked n → Readable t → (∀ u ∈ ts, Readable u) → Readable (.struct n (t :: ts))
  | func (n p r) : IsMarked n → Readable p → Readable r → Readable (.func n [p] r)
  | udt (n s ps) : IsMarked n → IsName s → (∀ p ∈ ps, ReadableParam p) → Readable (.udt n 0 s ps)
/-- parameters of user-defined types -/
inductive ReadableParam : FParam → Prop
  | dataType (t) : Readable t → ReadableParam (.dataType t)
  | integer (i) : ReadableParam (.integer i)
  | string (s) : IsName s → ReadableParam (.string s)
end

/-- a conditional written with `?` and `:` -/
def IsTernary : DExpr → Prop
  | .ite true _ _ _ => True
  | _ => False

/-- an expression whose text cannot be torn apart by an operator after it -/
def IsClosed : DExpr → Prop
  | .ite .. => False
  | .not _ => False
  | _ => True

/-- Expressions of derivations whose names are names of the grammar, whose operators have a closed
expression on the left and no `?` conditional on the right, and where no `?` conditional is negated or
the last part of another conditional. -/
inductive Writable : DExpr → Prop
  | num (v) : Writable (.num v)
  | name (s) : IsName s → Writable (.name s)
  | bin (op l r) : op ≠ .unknown → Writable l → IsClosed l → Writable r → ¬ IsTernary r →
      Writable (.bin op l r)
  | ite (b c t e) : Writable c → Writable t → Writable e → ¬ IsTernary e → Writable (.ite b c t e)
  | not (e) : Writable e → ¬ IsTernary e → Writable (.not e)
  | call (f es) : IsName f → (∀ c ∈ f.toList, c.toLower = c) → (∀ e ∈ es, Writable e) →
      Writable (.call f es)

/-- a type expression, or a derivation with one and the expressions above -/
inductive ReadableReturn : FTy → Prop
  | type (t) : Readable t → ReadableReturn t
  | derivation (a as t) : (∀ b ∈ a :: as, IsName b.1 ∧ Writable b.2) → Readable t →
      ReadableReturn (.derivation (a :: as) t)

/-- Expressions of derivations whose names are names of the grammar, function names in lower case, with
one of the twelve operators. -/
inductive ParsedExpr : DExpr → Prop
  | num (v) : ParsedExpr (.num v)
  | name (s) : IsName s → ParsedExpr (.name s)
  | bin (op l r) : op ≠ .unknown → ParsedExpr l → ParsedExpr r → ParsedExpr (.bin op l r)
  | ite (b c t e) : ParsedExpr c → ParsedExpr t → ParsedExpr e → ParsedExpr (.ite b c t e)
  | not (e) : ParsedExpr e → ParsedExpr (.not e)
  | call (f es) : IsName f → (∀ c ∈ f.toList, c.toLower = c) → (∀ e ∈ es, ParsedExpr e) →
      ParsedExpr (.call f es)

mutual
/-- Type expressions that are nullable or required throughout, without type variations, whose names are
names of the grammar, whose structs have fields and whose derivations have assignments. -/
inductive Parsed : FTy → Prop
  | prim (k n) : IsMarked n → Parsed (.prim k n 0)
  | any (n s) : IsMarked n → IsAnyName s → Parsed (.any n s)
  | single (k n p) : IsMarked n → IsIntParam p → Parsed (.single k n p)
  | decimal (n p s) : IsMarked n → IsIntParam p → IsIntParam s → Parsed (.decimal n p s)
  | list (n t) : IsMarked n → Parsed t → Parsed (.list n t)
  | map (n k v) : IsMarked n → Parsed k → Parsed v → Parsed (.map n k v)
  | struct (n t ts) : IsMarked n → Parsed t → (∀ u ∈ ts, Parsed u) → Parsed (.struct n (t :: ts))
  | func (n ps r) : IsMarked n → (∀ p ∈ ps, Parsed p) → Parsed r → Parsed (.func n ps r)
  | udt (n s ps) : IsMarked n → IsName s → (∀ p ∈ ps, ParsedParam p) → Parsed (.udt n 0 s ps)
  | derivation (a as t) : (∀ b ∈ a :: as, IsName b.1 ∧ ParsedExpr b.2) → Parsed t →
      Parsed (.derivation (a :: as) t)
/-- their parameters -/
inductive ParsedParam : FParam → Prop
  | dataType (t) : Parsed t → ParsedParam (.dataType t)
  | integer (i) : ParsedParam (.integer i)
  | string (s) : IsName s → ParsedParam (.string s)
end

mutual
/-- Type expressions in which every function type has one parameter and no derivation occurs. -/
inductive Plain : FTy → Prop
  | prim (k n v) : Plain (.prim k n v)
  | any (n s) : Plain (.any n s)
  | single (k n p) : Plain (.single k n p)
  | decimal (n p s) : Plain (.decimal n p s)
  | list (n t) : Plain t → Plain (.list n t)
  | map (n k v) : Plain k → Plain v → Plain (.map n k v)
  | struct (n ts) : (∀ u ∈ ts, Plain u) → Plain (.struct n ts)
  | func (n p r) : Plain p → Plain r → Plain (.func n [p] r)
  | udt (n v s ps) : (∀ p ∈ ps, PlainParam p) → Plain (.udt n v s ps)
/-- their parameters -/
inductive PlainParam : FParam → Prop
  | dataType (t) : Plain t → PlainParam (.dataType t)
  | integer (i) : PlainParam (.integer i)
  | string (s) : PlainParam (.string s)
end

/-- Expressions whose operators have a closed expression on the left and no `?` conditional on the
right, and where no `?` conditional is negated or the last part of another conditional. -/
inductive PlainExpr : DExpr → Prop
  | num (v) : PlainExpr (.num v)
  | name (s) : PlainExpr (.name s)
  | bin (op l r) : PlainExpr l → IsClosed l → PlainExpr r → ¬ IsTernary r → PlainExpr (.bin op l r)
  | ite (b c t e) : PlainExpr c → PlainExpr t → PlainExpr e → ¬ IsTernary e → PlainExpr (.ite b c t e)
  | not (e) : PlainExpr e → ¬ IsTernary e → PlainExpr (.not e)
  | call (f es) : (∀ e ∈ es, PlainExpr e) → PlainExpr (.call f es)

/-- a plain type expression, or a derivation with one and the expressions above -/
inductive PlainReturn : FTy → Prop
  | type (t) : Plain t → PlainReturn t
  | derivation (as t) : (∀ b ∈ as, PlainExpr b.2) → Plain t → PlainReturn (.derivation as t)

end Verif
