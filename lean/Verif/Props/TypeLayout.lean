import Verif.Spec.TypeLayout
import Verif.Lemmas.TypeLayout
import Verif.Props.TypeText
/-!
# Layout of type expressions (C128)
-/

namespace Verif

/-! ## C128 -/

/-- C128, white space: amounts of it, and white space at both ends, do not matter. -/
def C128_blanks_statement : Prop :=
  ∀ a b w : String, NoComment a → IsBlanks w →
    parseType (w ++ b) = parseType b ∧ parseType (a ++ w) = parseType a ∧
    parseType (a ++ " " ++ w ++ b) = parseType (a ++ " " ++ b)

/-- C128, signs: white space around signs does not matter. -/
def C128_signs_statement : Prop :=
  ∀ a b v w : String, NoComment a → IsBlanks v → IsBlanks w →
    (∀ c, IsLoneSign c → parseType (a ++ v ++ String.singleton c ++ w ++ b) = parseType (a ++ String.singleton c ++ b)) ∧
    (b.toList.head? ≠ some '=' → parseType (a ++ v ++ "<" ++ w ++ b) = parseType (a ++ "<" ++ b)) ∧
    (b.toList.head? ≠ some '=' → a.toList.getLast? ≠ some '-' →
      parseType (a ++ v ++ ">" ++ w ++ b) = parseType (a ++ ">" ++ b))

/-- C128, comments: a comment is white space. -/
def C128_comments_statement : Prop :=
  ∀ a b c : String, NoComment a →
    (OneLine c → parseType (a ++ " //" ++ c) = parseType a) ∧
    (OneLine c → parseType (a ++ " //" ++ c ++ "\n" ++ b) = parseType (a ++ " \n" ++ b)) ∧
    (¬ "*/".toList <:+: c.toList → parseType (a ++ " /*" ++ c ++ "*/" ++ b) = parseType (a ++ " " ++ b))

/-- C128, other characters: a text with a character that the grammar does not have is refused. -/
def C128_characters_statement : Prop :=
  ∀ s : String, NoComment s → (∃ c ∈ s.toList, ¬ InGrammar c) → parseType s = .err

/-- C128 in full. -/
def C128_statement : Prop :=
  C128_blanks_statement ∧ C128_signs_statement ∧ C128_comments_statement ∧ C128_characters_statement

private theorem uncommented_of : ∀ l : List Char, ¬ ['/', '/'] <:+: l → ¬ ['/', '*'] <:+: l → Uncommented l
  | [], _, _ => trivial
  | c :: cs, h1, h2 => by
    have ih := uncommented_of cs (fun h => h1 (h.trans (List.suffix_cons _ _).isInfix))
      (fun h => h2 (h.trans (List.suffix_cons _ _).isInfix))
    unfold Uncommented
    split
    · rename_i r e; exact h1 ⟨[], r, e.symm⟩
    · rename_i r e; exact h2 ⟨[], r, e.symm⟩
    · rename_i e; cases e; exact ih
    · trivial

private theorem NoComment.list {s : String} (h : NoComment s) : Uncommented s.toList :=
  uncommented_of _ h.1 h.2

private theorem fresh_of {c : Char} (h : isIdChar c = false) (h' : c ∉ ['>', ':', '=', '/', '*', '!', '\n']) (x : Char) :
    IsFresh x c := by
  simp only [List.mem_cons, List.not_mem_nil, or_false, not_or] at h'
  refine ⟨h, fun _ => h'.2.2.2.2.2.1, ?_⟩
  simp [h']

private theorem space_fresh (x : Char) : IsFresh x ' ' := fresh_of (by decide) (by decide) x
private theorem tab_fresh (x : Char) : IsFresh x '\t' := fresh_of (by decide) (by decide) x

private theorem lex_blank (c : Char) (h : c = ' ' ∨ c = '\t') (r : List Char) : lexText (c :: r) = lexText r := by
  rw [lexText_cons]
  rcases h with rfl | rfl
  · rw [nextTok_space]; rfl
  · rw [show nextTok '\t' r = (none, r) by cases r <;> rfl]; rfl

private theorem lex_blanks {w : List Char} (h : ∀ c ∈ w, c = ' ' ∨ c = '\t') (r : List Char) :
    lexText (w ++ r) = lexText r := by
  induction w with
  | nil => rfl
  | cons c w ih =>
    rw [List.cons_append, lex_blank c (h c (by simp)), ih fun d hd => h d (by simp [hd])]

private theorem lex_gap {a w : List Char} (ha : Uncommented a) (hw : ∀ c ∈ w, c = ' ' ∨ c = '\t') (hne : w ≠ [])
    (b : List Char) : lexText (a ++ (w ++ b)) = lexText a ++ lexText b := by
  cases w with
  | nil => exact absurd rfl hne
  | cons c w =>
    have hid : isIdChar c = false := by rcases hw c (by simp) with rfl | rfl <;> decide
    rw [List.cons_append, lexText_append c _ hid _ a (Nat.le_refl _) ha, lex_blank c (hw c (by simp)),
      lex_blanks fun d hd => hw d (by simp [hd])]
    intro x _
    rcases hw c (by simp) with rfl | rfl
    · exact space_fresh x
    · exact tab_fresh x

private theorem parse_of {s t : String} (h : lexText s.toList = lexText t.toList) : parseType s = parseType t := by
  rw [parseType, parseType, h]

/-- C128, white space, in full. -/
theorem C128_blanks : C128_blanks_statement := by
  intro a b w ha hw
  refine ⟨parse_of ?_, parse_of ?_, parse_of ?_⟩
  · rw [String.toList_append]; exact lex_blanks hw _
  · rw [String.toList_append]
    by_cases hne : w.toList = []
    · rw [hne, List.append_nil]
    · have := lex_gap ha.list hw hne []
      rw [List.append_nil] at this
      rw [this]
      exact List.append_nil _
  · simp only [String.toList_append, List.append_assoc]
    have h1 := lex_gap (w := [' '] ++ w.toList) ha.list (by
      intro c hc
      simp only [List.singleton_append, List.mem_cons] at hc
      rcases hc with rfl | hc
      · exact .inl rfl
      · exact hw c hc) (by simp) b.toList
    have h2 := lex_gap (w := [' ']) ha.list (by simp) (by simp) b.toList
    rw [List.append_assoc] at h1
    exact h1.trans h2.symm

/-- white space on both sides of a sign -/
private theorem around {a v w : List Char} (c : Char) (t : GTok) (ha : Uncommented a)
    (hv : ∀ d ∈ v, d = ' ' ∨ d = '\t') (hw : ∀ d ∈ w, d = ' ' ∨ d = '\t') (hid : isIdChar c = false)
    (hl : ∀ x, a.getLast? = some x → IsFresh x c) (b : List Char)
    (ht : ∀ u : List Char, (∀ d ∈ u, d = ' ' ∨ d = '\t') → nextTok c (u ++ b) = (some t, u ++ b)) :
    lexText (a ++ (v ++ c :: (w ++ b))) = lexText (a ++ c :: b) := by
  have e : ∀ u : List Char, (∀ d ∈ u, d = ' ' ∨ d = '\t') → lexText (c :: (u ++ b)) = t :: lexText b := by
    intro u hu
    rw [lexText_cons, ht u hu]
    simp only [Option.toList_some, List.singleton_append, lex_blanks hu]
  have e0 := e [] (by simp)
  simp only [List.nil_append] at e0
  have h0 := lexText_append c b hid _ a (Nat.le_refl _) ha hl
  rw [h0, e0]
  by_cases hne : v = []
  · subst hne
    rw [List.nil_append, lexText_append c _ hid _ a (Nat.le_refl _) ha hl, e w hw]
  · rw [lex_gap ha hv hne, e w hw]

private theorem lone_tok {c : Char} (h : IsLoneSign c) (r : List Char) :
    nextTok c r = (some (.sign (String.singleton c)), r) := by
  simp only [IsLoneSign, List.mem_cons, List.not_mem_nil, or_false] at h
  rcases h with rfl | rfl | rfl | rfl | rfl | rfl | rfl | rfl | rfl | rfl <;> cases r <;> rfl

private theorem notEq_blanks {b : List Char} (h : b.head? ≠ some '=') (u : List Char)
    (hu : ∀ d ∈ u, d = ' ' ∨ d = '\t') : (u ++ b).head? ≠ some '=' := by
  cases u with
  | nil => exact h
  | cons d u =>
    rcases hu d (by simp) with rfl | rfl <;> simp

/-- C128, signs, in full. -/
theorem C128_signs : C128_signs_statement := by
  intro a b v w ha hv hw
  refine ⟨fun c hc => parse_of ?_, fun hb => parse_of ?_, fun hb hl => parse_of ?_⟩
  · simp only [String.toList_append, List.append_assoc, String.toList_singleton, List.cons_append, List.nil_append]
    refine around c _ ha.list hv hw ?_ (fun x _ => fresh_of ?_ ?_ x) _ fun u _ => lone_tok hc _
    all_goals
      simp only [IsLoneSign, List.mem_cons, List.not_mem_nil, or_false] at hc
      rcases hc with rfl | rfl | rfl | rfl | rfl | rfl | rfl | rfl | rfl | rfl <;> decide
  · simp only [String.toList_append, List.append_assoc]
    refine around '<' (.sign "<") ha.list hv hw (by decide) (fun x _ => fresh_of (by decide) (by decide) x) _ ?_
    intro u hu
    have := notEq_blanks hb u hu
    cases h : u ++ b.toList with
    | nil => rfl
    | cons d r =>
      rw [h] at this
      exact nextTok_lt _ _ (fun e => this (by simp [e]))
  · simp only [String.toList_append, List.append_assoc]
    refine around '>' (.sign ">") ha.list hv hw (by decide) ?_ _ ?_
    · intro x hx
      have : x ≠ '-' := by rintro rfl; exact hl hx
      exact ⟨by decide, fun _ => by decide, by simp [this]⟩
    · intro u hu
      have := notEq_blanks hb u hu
      cases h : u ++ b.toList with
      | nil => rfl
      | cons d r =>
        rw [h] at this
        have hd : d ≠ '=' := fun e => this (by simp [e])
        simp [nextTok, isIdStart, isDigitChar, hd]

private theorem lex_line {c : List Char} (h1 : '\n' ∉ c) (h2 : '\r' ∉ c) :
    lexText ('/' :: '/' :: c) = [] ∧ ∀ b, lexText ('/' :: '/' :: (c ++ '\n' :: b)) = lexText ('\n' :: b) := by
  have hc : ∀ d ∈ c, (decide (d ≠ '\n') && decide (d ≠ '\r')) = true := by
    intro d hd
    have e1 : d ≠ '\n' := fun e => h1 (e ▸ hd)
    have e2 : d ≠ '\r' := fun e => h2 (e ▸ hd)
    simp [e1, e2]
  constructor
  · rw [lexText_cons, show nextTok '/' ('/' :: c) =
      (none, c.dropWhile fun c => decide (c ≠ '\n') && decide (c ≠ '\r')) from rfl]
    have := List.dropWhile_append_of_pos (l₂ := []) hc
    rw [List.append_nil] at this
    rw [this]
    rfl
  · intro b
    rw [lexText_cons, show nextTok '/' ('/' :: (c ++ '\n' :: b)) =
      (none, (c ++ '\n' :: b).dropWhile fun c => decide (c ≠ '\n') && decide (c ≠ '\r')) from rfl]
    rw [List.dropWhile_append_of_pos hc]
    rfl

private theorem lex_after {a : List Char} (ha : Uncommented a) (b : List Char) :
    lexText (a ++ (' ' :: b)) = lexText a ++ lexText b := lex_gap (w := [' ']) ha (by simp) (by simp) b

/-- C128, comments: to the end of the line in full, `/* */` with one character. Missing: longer
comments, for which it is false (`C128_negation_block`). -/
theorem C128_comments_partial (a b c : String) (ha : NoComment a) :
    (OneLine c → parseType (a ++ " //" ++ c) = parseType a) ∧
    (OneLine c → parseType (a ++ " //" ++ c ++ "\n" ++ b) = parseType (a ++ " \n" ++ b)) ∧
    (c.toList.length = 1 → c ≠ "*" → parseType (a ++ " /*" ++ c ++ "*/" ++ b) = parseType (a ++ " " ++ b)) := by
  refine ⟨fun hc => parse_of ?_, fun hc => parse_of ?_, fun hc hs => parse_of ?_⟩
  · simp only [String.toList_append, List.append_assoc]
    have h1 := lex_after ha.list ('/' :: '/' :: c.toList)
    rw [(lex_line hc.1 hc.2).1, List.append_nil] at h1
    exact h1
  · simp only [String.toList_append, List.append_assoc]
    have h1 := lex_after ha.list ('/' :: '/' :: (c.toList ++ '\n' :: b.toList))
    rw [(lex_line hc.1 hc.2).2] at h1
    exact h1.trans (lex_after ha.list _).symm
  · obtain ⟨x, hx⟩ := List.length_eq_one_iff.1 hc
    have hne : x ≠ '*' := by
      rintro rfl
      exact hs (String.toList_inj.1 (hx.trans (by decide)))
    simp only [String.toList_append, List.append_assoc, hx]
    have h1 := lex_after ha.list ('/' :: '*' :: x :: '*' :: '/' :: b.toList)
    have h2 : lexText ('/' :: '*' :: x :: '*' :: '/' :: b.toList) = lexText b.toList := by
      rw [lexText_cons]
      have : nextTok '/' ('*' :: x :: '*' :: '/' :: b.toList) = (none, b.toList) := by
        have hb : blockComment (x :: '*' :: '/' :: b.toList) = some b.toList := by
          simp [blockComment, List.dropWhile, List.takeWhile, hne]
        simp only [nextTok, show isIdStart '/' = false from rfl, show isDigitChar '/' = false from rfl,
          Bool.false_eq_true, if_false, hb]
        rfl
      rw [this]
      rfl
    rw [h2] at h1
    exact h1.trans (lex_after ha.list _).symm

example : NoComment "decimal < P" ∧ IsBlanks " \t" ∧ OneLine "a number" ∧ ("x".toList.length = 1 ∧ "x" ≠ "*") ∧
    parseType " decimal <38 ,\t10 > ? //a number" = parseType "decimal<38,10>?" := by
  refine ⟨⟨by decide +kernel, by decide +kernel⟩, ?_, ⟨by decide +kernel, by decide +kernel⟩, ⟨by decide +kernel, by decide +kernel⟩, by
    simp only [parseType]; rw [show lexText " decimal <38 ,\t10 > ? //a number".toList = lexText "decimal<38,10>?".toList
      from by decide +kernel]⟩
  intro c hc
  simp only [show " \t".toList = [' ', '\t'] from by decide +kernel, List.mem_cons, List.not_mem_nil, or_false] at hc
  exact hc

/-- no expression starts with a slash -/
private theorem slash_refused {s : String} {ts : List GTok} (h : lexText s.toList = .sign "/" :: ts) :
    parseType s = .err := by
  have h1 : ∀ (f : Nat → List GTok → Readings TVal) n, primaryExpr f n (.sign "/" :: ts) = [] := fun _ _ => rfl
  have h2 : ∀ n, exprReadings n 0 (.sign "/" :: ts) = [] := by
    intro n
    cases n with
    | zero => rfl
    | succ n => rw [exprReadings, h1]; rfl
  have h3 : startRule (.sign "/" :: ts) = none := by rw [startRule, h2]; rfl
  rw [parseType, h, h3]

private theorem parse_i32 : parseType "i32" = .ok (.prim .i32 2 0) :=
  C88_written_partial _ (.type _ (.prim .i32 2 (.inr rfl)))

/-- C128 is false as stated: a comment of several characters is no comment, -/
theorem C128_negation_block : ¬ C128_comments_statement := by
  intro h
  have h1 := (h "" "i32" "xy" ⟨by decide +kernel, by decide +kernel⟩).2.2 (by decide +kernel)
  have h2 : parseType ("" ++ " /*" ++ "xy" ++ "*/" ++ "i32") = .err := by
    have e : lexText ("" ++ " /*" ++ "xy" ++ "*/" ++ "i32").toList =
        [.sign "/", .sign "*", .ident ['x', 'y'], .sign "*", .sign "/", .key "i32"] := by decide +kernel
    exact slash_refused e
  have h3 : parseType ("" ++ " " ++ "i32") = .ok (.prim .i32 2 0) := by
    rw [parse_of (t := "i32") (by decide +kernel), parse_i32]
  rw [h2, h3] at h1
  cases h1

/-- ... nor is an empty one, whatever follows it, -/
theorem C128_negation_empty (b : String) : parseType ("/**/" ++ b) = .err := by
  have e : ("/**/" ++ b).toList = '/' :: '*' :: '*' :: '/' :: b.toList := by rw [String.toList_append]; rfl
  have h : nextTok '/' ('*' :: '*' :: '/' :: b.toList) = (some (.sign "/"), '*' :: '*' :: '/' :: b.toList) := by
    have hb : blockComment ('*' :: '/' :: b.toList) = none := by simp [blockComment, List.dropWhile]
    simp only [nextTok, show isIdStart '/' = false from rfl, show isDigitChar '/' = false from rfl,
      Bool.false_eq_true, if_false, hb]
    rfl
  refine slash_refused (ts := lexText ('*' :: '*' :: '/' :: b.toList)) ?_
  rw [e, lexText_cons, h]
  rfl

/-- ... and characters that no type expression has are skipped. -/
theorem C128_negation_characters : ¬ C128_characters_statement := by
  intro h
  have h1 := h "i32@" ⟨by decide +kernel, by decide +kernel⟩ ⟨'@', by decide, by
    simp [InGrammar, IsLetter, IsDigit]⟩
  have h2 : parseType "i32@" = .ok (.prim .i32 2 0) := by
    rw [parse_of (t := "i32") (by decide +kernel), parse_i32]
  rw [h2] at h1
  cases h1

theorem C128_negation : ¬ C128_statement := fun h => C128_negation_block h.2.2.1

end Verif
