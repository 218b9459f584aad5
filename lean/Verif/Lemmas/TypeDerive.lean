import Verif.Lemmas.TypeInv
/-!
# The text of derivations as tokens, and the reading of these tokens
-/

namespace Verif

/-! ## Tokens -/

/-- the token of an operator -/
def DOp.tok : DOp → GTok
  | .plus => .sign "+"
  | .minus => .sign "-"
  | .multiply => .sign "*"
  | .divide => .sign "/"
  | .lt => .sign "<"
  | .lte => .sign "<="
  | .gt => .sign ">"
  | .gte => .sign ">="
  | .eq => .sign "="
  | .neq => .sign "!="
  | .and => .key "and"
  | .or => .key "or"
  | .unknown => .newline

mutual
/-- the tokens of the text of an expression -/
def DExpr.toks : DExpr → List GTok
  | .num v => [.num (intChars v.toInt)]
  | .name s => [.ident s.toList]
  | .bin op l r => .sign "(" :: (l.toks ++ op.tok :: (r.toks ++ [.sign ")"]))
  | .ite true c t e => c.toks ++ .sign "?" :: (t.toks ++ .sign ":" :: e.toks)
  | .ite false c t e => .key "if" :: (c.toks ++ .key "then" :: (t.toks ++ .key "else" :: e.toks))
  | .not e => .sign "!" :: e.toks
  | .call f es => .ident f.toList :: .sign "(" :: (DExpr.toksList es ++ [.sign ")"])
/-- the tokens of the first expression of a list and of the others -/
def DExpr.toksList : List DExpr → List GTok
  | [] => []
  | e :: es => e.toks ++ DExpr.toksRest es
/-- the tokens of the further expressions of a list -/
def DExpr.toksRest : List DExpr → List GTok
  | [] => []
  | e :: es => .sign "," :: (e.toks ++ DExpr.toksRest es)
end

/-- the tokens of assignments -/
def assignmentToks : List (String × DExpr) → List GTok
  | [] => []
  | (x, e) :: as => .ident x.toList :: .sign "=" :: (e.toks ++ .newline :: assignmentToks as)

theorem lexes_colon {rest ts} (h : Lexes rest ts) : Lexes (':' :: ' ' :: rest) (.sign ":" :: ts) :=
  lexes_tok (' ' :: rest) (by rfl) (by simp) (lexes_skip1 h)

theorem lexes_op (op : DOp) (ho : op ≠ .unknown) {rest ts} (h : Lexes rest ts) :
    Lexes (op.str.toList ++ ' ' :: rest) (op.tok :: ts) := by
  have h' := lexes_skip1 h
  cases op with
  | and => exact lexes_key "and" _ _ rfl (by decide) (by decide) (by decide) _ _ (sep_space _) h'
  | or => exact lexes_key "or" _ _ rfl (by decide) (by decide) (by decide) _ _ (sep_space _) h'
  | unknown => exact absurd rfl ho
  | lte => exact lexes_tok (' ' :: rest) (by rfl) (by simp) h'
  | gte => exact lexes_tok (' ' :: rest) (by rfl) (by simp) h'
  | neq => exact lexes_tok (' ' :: rest) (by rfl) (by simp) h'
  | _ => exact lexes_tok (' ' :: rest) (by rfl) (by simp) h'

theorem chars_eq (s : String) : charsOf [s] = s.toList := by simp [charsOf_cons, charsOf_nil]

mutual
theorem lexes_dexpr : ∀ (e : DExpr), Writable e → ∀ rest ts, Sep rest → Lexes rest ts →
    Lexes (charsOf e.pieces ++ rest) (e.toks ++ ts) ∧ NotEq (charsOf e.pieces ++ rest)
  | .num v, _, rest, ts, hs, hr => by
    simp only [DExpr.pieces, DExpr.toks, charsOf_cons, charsOf_nil, List.append_nil, intString_toList]
    exact ⟨lexes_int _ _ _ hs hr, notEq_int _ _⟩
  | .name s, h, rest, ts, hs, hr => by
    cases h with
    | name _ hn =>
      simp only [DExpr.pieces, DExpr.toks, charsOf_cons, charsOf_nil, List.append_nil]
      exact ⟨lexes_name s hn _ _ hs hr, notEq_name s hn _⟩
  | .bin op l r, h, rest, ts, hs, hr => by
    cases h with
    | bin _ _ _ ho hl hc hr' ht =>
      simp only [DExpr.pieces, DExpr.toks, charsOf_cons, charsOf_append, charsOf_nil, List.append_nil,
        List.append_assoc, List.cons_append, List.nil_append]
      obtain ⟨h1, -⟩ := lexes_dexpr r hr' (")".toList ++ rest) (.sign ")" :: ts) (sep_close _) (lexes_close hr)
      obtain ⟨h2, -⟩ := lexes_dexpr l hl _ _ (sep_space _) (lexes_skip1 (lexes_op op ho h1))
      exact ⟨lexes_open h2, by simp [NotEq]⟩
  | .ite true c t e, h, rest, ts, hs, hr => by
    cases h with
    | ite _ _ _ _ hc ht he hn =>
      simp only [DExpr.pieces, DExpr.toks, charsOf_cons, charsOf_append, charsOf_nil, List.append_nil,
        List.append_assoc, List.cons_append, List.nil_append]
      obtain ⟨h1, -⟩ := lexes_dexpr e he rest ts hs hr
      obtain ⟨h2, -⟩ := lexes_dexpr t ht _ _ (sep_space _) (lexes_skip1 (lexes_colon h1))
      exact lexes_dexpr c hc _ _ (sep_space _) (lexes_skip1 (lexes_mark (lexes_skip1 h2)))
  | .ite false c t e, h, rest, ts, hs, hr => by
    cases h with
    | ite _ _ _ _ hc ht he hn =>
      simp only [DExpr.pieces, DExpr.toks, charsOf_cons, charsOf_append, charsOf_nil, List.append_nil,
        List.append_assoc, List.cons_append, List.nil_append]
      obtain ⟨h1, -⟩ := lexes_dexpr e he rest ts hs hr
      obtain ⟨h2, -⟩ := lexes_dexpr t ht _ _ (sep_space _) (lexes_skip1
        (lexes_key "else" _ _ rfl (by decide) (by decide) (by decide) _ _ (sep_space _) (lexes_skip1 h1)))
      obtain ⟨h3, -⟩ := lexes_dexpr c hc _ _ (sep_space _) (lexes_skip1
        (lexes_key "then" _ _ rfl (by decide) (by decide) (by decide) _ _ (sep_space _) (lexes_skip1 h2)))
      exact ⟨lexes_key "if" _ _ rfl (by decide) (by decide) (by decide) _ _ (sep_space _) (lexes_skip1 h3),
        by simp [NotEq]⟩
  | .not e, h, rest, ts, hs, hr => by
    cases h with
    | not _ he hn =>
      simp only [DExpr.pieces, DExpr.toks, charsOf_cons, charsOf_append, charsOf_nil, List.append_nil,
        List.append_assoc, List.cons_append, List.nil_append]
      obtain ⟨h1, h2⟩ := lexes_dexpr e he rest ts hs hr
      exact ⟨lexes_bang h2 h1, by simp [NotEq]⟩
  | .call f [], h, rest, ts, hs, hr => by
    cases h with
    | call _ _ hf hl hes =>
      simp only [DExpr.pieces, DExpr.toks, DExpr.piecesList, DExpr.toksList, charsOf_cons, charsOf_append,
        charsOf_nil, List.append_nil, List.append_assoc, List.cons_append, List.nil_append]
      exact ⟨lexes_name f hf _ _ (sep_open _) (lexes_open (lexes_close hr)), notEq_name f hf _⟩
  | .call f (e :: es), h, rest, ts, hs, hr => by
    cases h with
    | call _ _ hf hl hes =>
      simp only [DExpr.pieces, DExpr.toks, DExpr.piecesList, DExpr.toksList, charsOf_cons, charsOf_append,
        charsOf_nil, List.append_nil, List.append_assoc, List.cons_append, List.nil_append]
      obtain ⟨h1, h3⟩ := lexes_dexprRest es (fun q hq => hes q (List.mem_cons_of_mem _ hq))
        (")".toList ++ rest) (.sign ")" :: ts) (sep_close _) (lexes_close hr)
      obtain ⟨h4, h5⟩ := lexes_dexpr e (hes e List.mem_cons_self) _ _ h3 h1
      exact ⟨lexes_name f hf _ _ (sep_open _) (lexes_open h4), notEq_name f hf _⟩

theorem lexes_dexprRest : ∀ (es : List DExpr), (∀ e ∈ es, Writable e) → ∀ rest ts, Sep rest →
    Lexes rest ts → Lexes (charsOf (DExpr.piecesRest es) ++ rest) (DExpr.toksRest es ++ ts) ∧
      Sep (charsOf (DExpr.piecesRest es) ++ rest)
  | [], _, rest, ts, hs, hr => by
    simp only [DExpr.piecesRest, DExpr.toksRest, charsOf_nil, List.nil_append]
    exact ⟨hr, hs⟩
  | u :: us, h, rest, ts, hs, hr => by
    obtain ⟨h1, h3⟩ := lexes_dexprRest us (fun v hv => h v (List.mem_cons_of_mem _ hv)) rest ts hs hr
    obtain ⟨h4, h5⟩ := lexes_dexpr u (h u List.mem_cons_self) _ _ h3 h1
    simp only [DExpr.piecesRest, DExpr.toksRest, charsOf_cons, charsOf_append, charsOf_nil, List.append_nil,
      List.append_assoc, List.cons_append, List.nil_append]
    exact ⟨lexes_comma (lexes_skip1 h4), sep_comma _⟩
end

theorem lexes_assignments : ∀ (as : List (String × DExpr)), (∀ a ∈ as, IsName a.1 ∧ Writable a.2) →
    ∀ rest ts, Lexes rest ts → Lexes (charsOf (assignmentPieces as) ++ rest) (assignmentToks as ++ ts)
  | [], _, rest, ts, hr => by
    simp only [assignmentPieces, assignmentToks, charsOf_nil, List.nil_append]
    exact hr
  | (x, e) :: as, h, rest, ts, hr => by
    have h1 := lexes_assignments as (fun v hv => h v (List.mem_cons_of_mem _ hv)) rest ts hr
    obtain ⟨hx, he⟩ := h (x, e) List.mem_cons_self
    simp only [assignmentPieces, assignmentToks, charsOf_cons, charsOf_append, charsOf_nil, List.append_nil,
      List.append_assoc, List.cons_append, List.nil_append]
    obtain ⟨h2, -⟩ := lexes_dexpr e he _ _ (sep_newline _) (lexes_newline h1)
    refine lexes_name x hx _ _ (sep_space _) (lexes_skip1 ?_)
    exact lexes_op .eq (by simp) h2

/-! ## What the tokens look like -/

mutual
theorem dexpr_ok : ∀ (e : DExpr), Writable e → ∀ t ∈ e.toks, TokOk t
  | .num v, _, t, ht => by
    simp only [DExpr.toks, List.mem_singleton] at ht
    rw [ht]; trivial
  | .name s, h, t, ht => by
    cases h with
    | name _ hn =>
      simp only [DExpr.toks, List.mem_singleton] at ht
      rw [ht]; simpa [TokOk] using hn
  | .bin op l r, h, t, ht => by
    cases h with
    | bin _ _ _ ho hl hc hr hn =>
      simp only [DExpr.toks, List.mem_cons, List.mem_append, List.not_mem_nil, or_false] at ht
      rcases ht with rfl | ht | rfl | ht | rfl
      · trivial
      · exact dexpr_ok l hl t ht
      · cases op <;> trivial
      · exact dexpr_ok r hr t ht
      · trivial
  | .ite true c x e, h, t, ht => by
    cases h with
    | ite _ _ _ _ hc hx he hn =>
      simp only [DExpr.toks, List.mem_cons, List.mem_append] at ht
      rcases ht with ht | rfl | ht | rfl | ht
      · exact dexpr_ok c hc t ht
      · trivial
      · exact dexpr_ok x hx t ht
      · trivial
      · exact dexpr_ok e he t ht
  | .ite false c x e, h, t, ht => by
    cases h with
    | ite _ _ _ _ hc hx he hn =>
      simp only [DExpr.toks, List.mem_cons, List.mem_append] at ht
      rcases ht with rfl | ht | rfl | ht | rfl | ht
      · trivial
      · exact dexpr_ok c hc t ht
      · trivial
      · exact dexpr_ok x hx t ht
      · trivial
      · exact dexpr_ok e he t ht
  | .not e, h, t, ht => by
    cases h with
    | not _ he hn =>
      simp only [DExpr.toks, List.mem_cons] at ht
      rcases ht with rfl | ht
      · trivial
      · exact dexpr_ok e he t ht
  | .call f [], h, t, ht => by
    cases h with
    | call _ _ hf hl hes =>
      simp only [DExpr.toks, DExpr.toksList, List.nil_append, List.mem_cons, List.not_mem_nil, or_false] at ht
      rcases ht with rfl | rfl | rfl
      · simpa [TokOk] using hf
      · trivial
      · trivial
  | .call f (e :: es), h, t, ht => by
    cases h with
    | call _ _ hf hl hes =>
      simp only [DExpr.toks, DExpr.toksList, List.mem_cons, List.mem_append, List.not_mem_nil, or_false] at ht
      rcases ht with rfl | rfl | (ht | ht) | rfl
      · simpa [TokOk] using hf
      · trivial
      · exact dexpr_ok e (hes e List.mem_cons_self) t ht
      · exact dexprRest_ok es (fun q hq => hes q (List.mem_cons_of_mem _ hq)) t ht
      · trivial

theorem dexprRest_ok : ∀ (es : List DExpr), (∀ e ∈ es, Writable e) → ∀ t ∈ DExpr.toksRest es, TokOk t
  | [], _, t, ht => by simp [DExpr.toksRest] at ht
  | e :: es, h, t, ht => by
    simp only [DExpr.toksRest, List.mem_cons, List.mem_append] at ht
    rcases ht with rfl | ht | ht
    · trivial
    · exact dexpr_ok e (h e List.mem_cons_self) t ht
    · exact dexprRest_ok es (fun q hq => h q (List.mem_cons_of_mem _ hq)) t ht
end

/-- parentheses in pairs and no line end -/
def Level (ts : List GTok) : Prop := parens 0 ts = some 0 ∧ .newline ∉ ts

theorem level_nil : Level [] := ⟨rfl, by simp⟩

theorem Level.append {a b} (h : Level a) (h' : Level b) : Level (a ++ b) := by
  refine ⟨by rw [parens_append _ _ _ _ h.1, h'.1], ?_⟩
  simp [h.2, h'.2]

theorem Level.cons {t b} (h1 : t ≠ .sign "(") (h2 : t ≠ .sign ")") (h3 : t ≠ .newline) (h : Level b) :
    Level (t :: b) := by
  refine ⟨by simpa [parens, h1, h2] using h.1, ?_⟩
  simp [h.2, Ne.symm h3]

theorem Level.paren {b} (h : Level b) : Level (.sign "(" :: (b ++ [.sign ")"])) := by
  refine ⟨?_, by simp [h.2]⟩
  simp only [parens, if_true]
  rw [parens_append _ _ _ _ (parens_shift _ _ _ h.1)]
  simp [parens]

theorem op_tok (op : DOp) (h : op ≠ .unknown) : op.tok ≠ .sign "(" ∧ op.tok ≠ .sign ")" ∧ op.tok ≠ .newline := by
  cases op <;> simp [DOp.tok] at h ⊢

mutual
theorem dexpr_level : ∀ (e : DExpr), Writable e → Level e.toks
  | .num v, _ => by
    simp only [DExpr.toks]
    exact Level.cons (by simp) (by simp) (by simp) level_nil
  | .name s, _ => by
    simp only [DExpr.toks]
    exact Level.cons (by simp) (by simp) (by simp) level_nil
  | .bin op l r, h => by
    cases h with
    | bin _ _ _ ho hl hc hr hn =>
      obtain ⟨h1, h2, h3⟩ := op_tok op ho
      have := ((dexpr_level l hl).append ((dexpr_level r hr).cons h1 h2 h3)).paren
      simpa [DExpr.toks] using this
  | .ite true c x e, h => by
    cases h with
    | ite _ _ _ _ hc hx he hn =>
      simp only [DExpr.toks]
      exact (dexpr_level c hc).append (((dexpr_level x hx).append ((dexpr_level e he).cons (by simp) (by simp)
        (by simp))).cons (by simp) (by simp) (by simp))
  | .ite false c x e, h => by
    cases h with
    | ite _ _ _ _ hc hx he hn =>
      simp only [DExpr.toks]
      exact ((dexpr_level c hc).append (((dexpr_level x hx).append ((dexpr_level e he).cons (by simp) (by simp)
        (by simp))).cons (by simp) (by simp) (by simp))).cons (by simp) (by simp) (by simp)
  | .not e, h => by
    cases h with
    | not _ he hn =>
      simp only [DExpr.toks]
      exact (dexpr_level e he).cons (by simp) (by simp) (by simp)
  | .call f [], h => by
    simp only [DExpr.toks, DExpr.toksList]
    exact level_nil.paren.cons (by simp) (by simp) (by simp)
  | .call f (e :: es), h => by
    cases h with
    | call _ _ hf hl hes =>
      simp only [DExpr.toks, DExpr.toksList]
      exact ((dexpr_level e (hes e List.mem_cons_self)).append
        (dexprRest_level es fun q hq => hes q (List.mem_cons_of_mem _ hq))).paren.cons
        (by simp) (by simp) (by simp)

theorem dexprRest_level : ∀ (es : List DExpr), (∀ e ∈ es, Writable e) → Level (DExpr.toksRest es)
  | [], _ => by simp only [DExpr.toksRest]; exact level_nil
  | e :: es, h => by
    simp only [DExpr.toksRest]
    exact ((dexpr_level e (h e List.mem_cons_self)).append
      (dexprRest_level es fun q hq => h q (List.mem_cons_of_mem _ hq))).cons (by simp) (by simp) (by simp)
end

/-- What is read of tokens before an unmatched parenthesis does not reach behind it. -/
theorem eats_inside {a r k} (h : Level a) (h' : Eats (a ++ .sign ")" :: k) r) :
    r.head? ≠ some .newline := by
  obtain ⟨ha, hn⟩ := h
  obtain ⟨c, he, hc⟩ := h'
  intro hr
  rcases List.append_eq_append_iff.1 he with ⟨x, rfl, h2⟩ | ⟨x, rfl, h2⟩
  · cases x with
    | nil =>
      simp only [List.nil_append] at h2
      rw [← h2] at hr
      simp at hr
    | cons y x =>
      simp only [List.cons_append, List.cons.injEq] at h2
      rw [parens_append _ _ _ _ ha, ← h2.1] at hc
      simp [parens] at hc
  · cases x with
    | nil =>
      simp only [List.nil_append] at h2
      rw [h2] at hr
      simp at hr
    | cons y x =>
      rw [h2] at hr
      simp only [List.cons_append, List.head?_cons, Option.some.injEq] at hr
      rw [hr] at hn
      simp at hn

end Verif
