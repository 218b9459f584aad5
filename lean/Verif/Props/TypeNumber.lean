import Verif.Lemmas.TypeNumber
import Verif.Props.OpChain
/-!
# C92: numbers in type expressions
-/

namespace Verif

/-- C92, as stated: a number in a type expression is read as the number it denotes, or the text is refused. -/
def C92_statement : Prop :=
  (∀ (k : Single) (n : Nullability) (i : Int) (t : FTy), IsMarked n → parseType (sizedText k n i) = .ok t →
    ∃ c : Int32, c.toInt = i ∧ t = .single k n (.concrete c)) ∧
  (∀ (n : Nullability) (p s : Int) (t : FTy), IsMarked n → parseType (decimalText n p s) = .ok t →
    ∃ c d : Int32, c.toInt = p ∧ d.toInt = s ∧ t = .decimal n (.concrete c) (.concrete d)) ∧
  (∀ (y : String) (i : Int) (t u : FTy), IsName y → Readable t → parseType (constantText y i t) = .ok u →
    ∃ c : Int64, c.toInt = i ∧ u = .derivation [(y, .num c)] t)

theorem numericLiteral_int (i : Int) (h : IsInt64 i) : numericLiteral (intChars i) = some (.concrete (Int32.ofInt i)) := by
  rw [numericLiteral, numOf_int i h]

theorem numericLiteral_big (i : Int) (h : ¬ IsInt64 i) : numericLiteral (intChars i) = none := by
  rw [numericLiteral, numOf_big i h]

theorem int32_in64 {i : Int} (h : IsInt32 i) : IsInt64 i := by
  obtain ⟨h1, h2⟩ := h
  exact ⟨by omega, by omega⟩

theorem ofInt32_toInt {i : Int} (h : IsInt32 i) : (Int32.ofInt i).toInt = i := by
  obtain ⟨h1, h2⟩ := h
  exact Int32.toInt_ofInt_of_le (by omega) (by omega)

/-- **C92 (partial)**: the number of a type is read as it is if it has 32 bits. Missing: larger numbers of
up to 64 bits, which are cut to 32 bits (`C92_negation`). -/
theorem C92_size_partial (k : Single) (n : Nullability) (i : Int) (hn : IsMarked n) (hi : IsInt32 i) :
    ∃ c : Int32, c.toInt = i ∧ parseType (sizedText k n i) = .ok (.single k n (.concrete c)) := by
  refine ⟨Int32.ofInt i, ofInt32_toInt hi, ?_⟩
  unfold parseType
  rw [start_sized, numericLiteral_int i (int32_in64 hi)]
  simp only [singleType, markNullability_of hn]

/-- **C92 (partial)**: the numbers of a decimal type are read as they are if they have 32 bits. -/
theorem C92_decimal_partial (n : Nullability) (p s : Int) (hn : IsMarked n) (hp : IsInt32 p) (hs : IsInt32 s) :
    ∃ c d : Int32, c.toInt = p ∧ d.toInt = s ∧
      parseType (decimalText n p s) = .ok (.decimal n (.concrete c) (.concrete d)) := by
  refine ⟨Int32.ofInt p, Int32.ofInt s, ofInt32_toInt hp, ofInt32_toInt hs, ?_⟩
  unfold parseType
  rw [start_decimal, numericLiteral_int p (int32_in64 hp), numericLiteral_int s (int32_in64 hs)]
  simp only [decimalType, markNullability_of hn]

/-- Types with a number that has more than 64 bits are refused. -/
theorem C92_size_refused (k : Single) (n : Nullability) (i : Int) (hi : ¬ IsInt64 i) :
    parseType (sizedText k n i) = .err := by
  unfold parseType
  rw [start_sized, numericLiteral_big i hi]
  rfl

/-- Decimal types with a number that has more than 64 bits are refused. -/
theorem C92_decimal_refused (n : Nullability) (p s : Int) (h : ¬ IsInt64 p ∨ ¬ IsInt64 s) :
    parseType (decimalText n p s) = .err := by
  unfold parseType
  rw [start_decimal]
  rcases h with h | h
  · rw [numericLiteral_big p h]; rfl
  · rw [numericLiteral_big s h]
    cases numericLiteral (intChars p) <;> rfl

/-- The constants of derivations are read as they are if they have 64 bits; others are refused. -/
theorem C92_constant (y : String) (i : Int) (t : FTy) (hy : IsName y) (ht : Readable t) :
    (IsInt64 i → ∃ c : Int64, c.toInt = i ∧ parseType (constantText y i t) = .ok (.derivation [(y, .num c)] t)) ∧
    (¬ IsInt64 i → parseType (constantText y i t) = .err) := by
  refine ⟨fun h => ⟨Int64.ofInt i, Int64.toInt_ofInt_of_le (by exact h.1) (by have := h.2; omega), ?_⟩, fun h => ?_⟩
  · unfold parseType
    rw [start_constant y i t hy ht]
    simp only [literalNumber, numOf_int i h, multilineDefinition, TVal.asType, allOf, assignmentOf, TVal.asExpr,
      String.ofList_toList]
  · unfold parseType
    rw [start_constant y i t hy ht]
    simp only [literalNumber, numOf_big i h, multilineDefinition, TVal.asType, allOf, assignmentOf, TVal.asExpr]

/-- C92 as stated is false: `varchar<4294967297>` is read as `varchar<1>`. -/
theorem C92_negation : ¬ C92_statement := by
  intro h
  have e : parseType (sizedText (.fixed .varChar) 2 4294967297) = .ok (.single (.fixed .varChar) 2 (.concrete 1)) := by
    unfold parseType
    rw [start_sized, numericLiteral_int _ ⟨by omega, by omega⟩]
    rfl
  obtain ⟨c, h1, h2⟩ := h.1 _ _ _ _ (.inr rfl) e
  simp only [FTy.single.injEq, IntParam.concrete.injEq, true_and] at h2
  subst h2
  exact absurd h1 (by decide)

/-- `fixedchar?<-3>` -/
example : ∃ c : Int32, c.toInt = -3 ∧
    parseType (sizedText (.fixed .fixedChar) 1 (-3)) = .ok (.single (.fixed .fixedChar) 1 (.concrete c)) :=
  C92_size_partial _ _ _ (.inl rfl) ⟨by omega, by omega⟩

/-- `decimal<38,10>` -/
example : ∃ c d : Int32, c.toInt = 38 ∧ d.toInt = 10 ∧
    parseType (decimalText 2 38 10) = .ok (.decimal 2 (.concrete c) (.concrete d)) :=
  C92_decimal_partial _ _ _ (.inr rfl) ⟨by omega, by omega⟩ ⟨by omega, by omega⟩

/-- `varchar<9223372036854775808>` -/
example : parseType (sizedText (.fixed .varChar) 2 9223372036854775808) = .err :=
  C92_size_refused _ _ _ (by unfold IsInt64; omega)

/-- `decimal<38,9223372036854775808>` -/
example : parseType (decimalText 2 38 9223372036854775808) = .err :=
  C92_decimal_refused _ _ _ (.inr (by unfold IsInt64; omega))

/-- `y = -7` and a type that uses it -/
example : ∃ c : Int64, c.toInt = -7 ∧ parseType (constantText "y" (-7) (.single (.fixed .varChar) 2 (.var "y"))) =
    .ok (.derivation [("y", .num c)] (.single (.fixed .varChar) 2 (.var "y"))) :=
  (C92_constant "y" (-7) (.single (.fixed .varChar) 2 (.var "y")) name_y (.single _ _ _ (.inr rfl) name_y)).1 ⟨by omega, by omega⟩

end Verif
