import Verif.Spec.TypeNumber
import Verif.Lemmas.OpChain
/-!
# The reading of numbers
-/

namespace Verif

theorem atoi_big (i : Int) (h : ¬ IsInt64 i) : atoi (intText i) = .err := by
  unfold IsInt64 at h
  unfold intText
  have hd := atoiDigits_natText i.natAbs 0 rfl
  have hne := natText_ne_nil i.natAbs
  split
  · unfold atoi
    simp only [hne, if_false, hd, if_true]
    rw [if_pos (by omega)]
  · have hhead : ∃ c cs, natText i.natAbs = c :: cs ∧ c ≠ 45 ∧ c ≠ 43 := by
      cases hc : natText i.natAbs with
      | nil => exact absurd hc hne
      | cons c cs =>
        have := natText_digits i.natAbs c (by rw [hc]; simp)
        refine ⟨c, cs, rfl, ?_, ?_⟩ <;> rintro rfl <;> simp at this
    obtain ⟨c, cs, hc, h45, h43⟩ := hhead
    rw [hc] at hd ⊢
    unfold atoi
    split
    rename_i neg ds heq
    split at heq
    · rename_i e; cases e; exact absurd rfl h45
    · rename_i e; cases e; exact absurd rfl h43
    · cases heq
      simp only [reduceCtorEq, if_false, hd, Bool.false_eq_true]
      rw [if_pos (by omega)]

theorem numOf_big (i : Int) (h : ¬ IsInt64 i) : numOf (intChars i) = none := by
  unfold numOf
  rw [intChars_bytes, atoi_big i h]

theorem numeral_chars (i : Int) : (toString i).toList = intChars i := by
  rw [← intString_eq, intString_toList]

theorem numericParameter_num (E) (i : Int) (k) :
    First (numericParameter E (.num (intChars i) :: k)) (numericLiteral (intChars i)) k := by
  unfold numericParameter
  refine First.left ?_
  exact First.head ..

theorem start_type {ts v} (hh : TypeHead ts) (h : First (typeDef (exprReadings ts.length) ts.length ts) v []) :
    startRule ts = some v := start_of (expr_of_typeDef (p := 0) hh h trivial)

theorem start_sized (k : Single) (n : Nullability) (i : Int) :
    startRule (lexText (sizedText k n i).toList) = some (singleType k (decide (n = 1)) (numericLiteral (intChars i))) := by
  have hl : lexText (sizedText k n i).toList =
      .key k.longName :: (markToks n ++ .sign "<" :: .num (intChars i) :: .sign ">" :: []) := by
    obtain ⟨c, cs, e, hw, hc, hcs⟩ := single_key k
    have h1 := lexes_int i _ _ (sep_gt []) (lexes_gt trivial lexes_nil)
    refine Eq.trans (congrArg lexText ?_) (lexes_head _ c cs e hw hc hcs n _ _ (notEq_int i _) h1).lexText
    simp only [sizedText, String.toList_append, List.append_assoc, numeral_chars]
    rfl
  rw [hl]
  refine start_type ?_ ?_
  · rcases k with k | k <;> cases k <;> simp [TypeHead, Single.longName, Fixed.longName, Prec.longName]
  generalize List.length _ = N
  have e : ∀ ts, typeDef (exprReadings N) N (.key k.longName :: ts) =
      (optMark ts).flatMap fun x => (eatSign "<" x.2).flatMap fun r =>
      (numericParameter (exprReadings N) r).flatMap fun p =>
      (eatSign ">" p.2).map fun r => (singleType k x.1 p.1, r) := by
    intro ts
    rcases k with s | s <;> cases s <;>
      simp [typeDef, Single.longName, Fixed.longName, Prec.longName, primOfKey, parameterizedType, singleOfKey]
  rw [e]
  refine mark_lt n _ _ ?_
  refine First.bind (numericParameter_num _ i _) (by keeps_dead) ?_
  simp only [eatSign_self, List.map_cons, List.map_nil]
  exact First.head ..

theorem start_decimal (n : Nullability) (p s : Int) :
    startRule (lexText (decimalText n p s).toList) =
      some (decimalType (decide (n = 1)) (numericLiteral (intChars p)) (numericLiteral (intChars s))) := by
  have hl : lexText (decimalText n p s).toList =
      .key "decimal" :: (markToks n ++ .sign "<" :: .num (intChars p) :: .sign "," :: .num (intChars s) ::
        .sign ">" :: []) := by
    have h1 := lexes_int s _ _ (sep_gt []) (lexes_gt trivial lexes_nil)
    have h2 := lexes_int p _ _ (sep_comma _) (lexes_comma h1)
    refine Eq.trans (congrArg lexText ?_)
      (lexes_head "decimal" _ _ rfl (by decide) (by decide) (by decide) n _ _ (notEq_int p _) h2).lexText
    simp only [decimalText, String.toList_append, List.append_assoc, numeral_chars]
    rfl
  rw [hl]
  refine start_type (by simp [TypeHead]) ?_
  generalize List.length _ = N
  rw [typeDef_key _ _ _ _ (by decide) (by decide), param_decimal]
  refine mark_lt n _ _ ?_
  refine First.bind (numericParameter_num _ p _) (by keeps_dead) ?_
  simp only [eatSign_self, List.flatMap_cons, List.flatMap_nil, List.append_nil]
  refine First.bind (numericParameter_num _ s _) (by keeps_dead) ?_
  simp only [eatSign_self, List.map_cons, List.map_nil]
  exact First.head ..

theorem primary_num (s : List Char) (k n) :
    First (primaryExpr (exprReadings n) n (.num s :: k)) (literalNumber s) k := by
  simp only [primaryExpr, eatSign, assignmentLine, typeDef]
  simp
  exact First.head ..

theorem start_constant (y : String) (i : Int) (t : FTy) (hy : IsName y) (ht : Readable t) :
    startRule (lexText (constantText y i t).toList) =
      some (multilineDefinition [(y.toList, literalNumber (intChars i))] (.type t)) := by
  have hl : lexText (constantText y i t).toList =
      .ident y.toList :: .sign "=" :: ([.num (intChars i)] ++ .newline :: t.toks) := by
    have h0 := (lexes_ty t ht [] [] trivial lexes_nil).1
    simp only [List.append_nil] at h0
    have h3 := lexes_int i _ _ (sep_newline _) (lexes_newline h0)
    have h4 := lexes_name y hy _ _ (sep_space _) (lexes_skip1 (lexes_op .eq (by simp) h3))
    refine Eq.trans (congrArg lexText ?_) h4.lexText
    simp only [constantText, String.toList_append, List.append_assoc, FTy.string, numeral_chars]
    rfl
  have ok : ∀ u ∈ t.toks, TokOk u := by
    intro u hu
    refine lexText_ok (constantText y i t).toList u ?_
    rw [hl]
    exact List.mem_cons_of_mem _ (List.mem_cons_of_mem _ (List.mem_append_right _ (List.mem_cons_of_mem _ hu)))
  obtain ⟨w, h1, h2⟩ := read_line y [.num (intChars i)] t (fun w => w = literalNumber (intChars i)) ht ok
    (by simp) (fun n _ => ⟨_, expr_first (primary_num _ _ _) ⟨.inl rfl, by simp⟩, rfl⟩)
  rw [hl, h2, h1]

end Verif
