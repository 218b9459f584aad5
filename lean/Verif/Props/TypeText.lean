import Verif.Lemmas.TypeRead
/-!
# Properties of reading and writing type expressions
-/

namespace Verif

/-! ## C88: the text of a type expression is read as that type expression -/

/-- The claim: what `ParseType` makes of a text, written with `String`, is read as the same again. -/
def C88_statement : Prop := ∀ s t, parseType s = .ok t → parseType t.string = .ok t

/-- Written and read again, a type expression that is marked nullable or required throughout, with names of
the grammar and function types of one parameter, stays the same; so does a derivation that ends in one, as
long as its expressions have nothing but closed expressions on the left of operators, and `?` conditionals
neither on their right, nor negated, nor as the last part of a conditional.

Missing for the full claim: function types with none or several parameters, the other expressions, and
derivations inside other type expressions; for the first two it is false, see `C88_negation` and
`C88_negation_expression`. -/
theorem C88_written_partial (t : FTy) (h : ReadableReturn t) : parseType t.string = .ok t := parse_return t h

/-- The claim for all texts, under the same restrictions on what was read. -/
theorem C88_read_partial (s : String) (t : FTy) (h : parseType s = .ok t) (hp : PlainReturn t) :
    parseType t.string = .ok t :=
  parse_return t (return_of_parsed t (parseType_parsed s t h) hp)

/-- Different type expressions of this kind have different texts. -/
theorem C88_different_partial (t u : FTy) (ht : ReadableReturn t) (hu : ReadableReturn u)
    (h : t.string = u.string) : t = u := by
  have h1 := parse_return t ht
  rw [h, parse_return u hu, Res.ok.injEq] at h1
  exact h1.symm

/-- a function type of two parameters -/
def twoParams : FTy := .func 2 [.prim .i32 2 0, .prim .i64 2 0] (.prim .i32 2 0)

/-- False for function types: the parentheses around the parameters are read but not written. -/
theorem C88_negation : ¬ C88_statement := by
  intro h
  have h1 : parseType "func<(i32, i64) -> i32>" = .ok twoParams := by rfl
  have h2 : parseType twoParams.string = .err := by rfl
  have := h _ _ h1
  rw [h2] at this
  simp at this

/-- a conditional and a number added -/
def addedConditional (x : DExpr) : FTy := .derivation [("y", x)] (.single (.fixed .varChar) 2 (.var "y"))

/-- False for conditionals: the parentheses around a conditional on the left of an operator are not
written, and what is read instead takes the operator into the conditional. -/
theorem C88_negation_expression :
    parseType "y = (a > 3 ? 1 : 2) + 5\nvarchar<y>" =
      .ok (addedConditional (.bin .plus (.ite true (.bin .gt (.name "a") (.num 3)) (.num 1) (.num 2)) (.num 5))) ∧
    parseType (addedConditional
        (.bin .plus (.ite true (.bin .gt (.name "a") (.num 3)) (.num 1) (.num 2)) (.num 5))).string =
      .ok (addedConditional (.ite true (.bin .gt (.name "a") (.num 3)) (.num 1) (.bin .plus (.num 2) (.num 5)))) := by
  refine ⟨by rfl, ?_⟩
  have : (addedConditional
      (.bin .plus (.ite true (.bin .gt (.name "a") (.num 3)) (.num 1) (.num 2)) (.num 5))).string =
      "y = ((a > 3) ? 1 : 2 + 5)\nvarchar<y>" := by decide +kernel
  rw [this]
  rfl

/-! ## C89: what `ParseType` returns is in order -/

/-- Every type expression that `ParseType` returns is marked nullable or required throughout, has no type
variation, its names are names of the grammar, its structs have fields, its derivations have assignments and
its operators are operators of the grammar. -/
theorem C89_parsed (s : String) (t : FTy) (h : parseType s = .ok t) : Parsed t := parseType_parsed s t h

/-- and it does not panic -/
theorem C89_no_panic (s : String) : parseType s ≠ .panic := by
  unfold parseType
  split <;> simp

/-! ## Cases -/

theorem isName_L1 : IsName "L1" := by
  refine ⟨⟨'L', ['1'], rfl, ?_, ?_⟩, by decide, ?_⟩
  · right; left; decide
  · intro d hd
    rw [List.mem_singleton.1 hd]
    right; exact ⟨by decide, by decide⟩
  · intro d _ h
    have := congrArg List.length h
    simp at this

/-- `map<string?, list?<decimal<L1,0>>>` and a text for it -/
example :
    let t : FTy := .map 2 (.prim .string 1 0) (.list 1 (.decimal 2 (.var "L1") (.concrete 0)))
    ReadableReturn t ∧ t.string = "map<string?, list?<decimal<L1,0>>>" ∧
      parseType "MAP < string? ,list?<decimal<L1,0>>>" = .ok t ∧ PlainReturn t := by
  refine ⟨.type _ (.map _ _ _ (.inr rfl) (.prim _ _ (.inl rfl)) (.list _ _ (.inl rfl)
    (.decimal _ _ _ (.inr rfl) isName_L1 trivial))), by rfl, by rfl, .type _ (.map _ _ _ (.prim _ _ _) (.list _ _ (.decimal _ _ _)))⟩

/-- a derivation -/
example :
    let t := addedConditional (.bin .plus (.name "L1") (.num (-5)))
    PlainReturn t ∧ t.string = "y = (L1 + -5)\nvarchar<y>" ∧ parseType "y = L1 + -5\n\nvarchar<y>" = .ok t := by
  refine ⟨.derivation _ _ ?_ (.single _ _ _), by decide +kernel, by rfl⟩
  intro b hb
  rw [List.mem_singleton.1 hb]
  exact .bin _ _ _ (.name _) trivial (.num _) id

end Verif
