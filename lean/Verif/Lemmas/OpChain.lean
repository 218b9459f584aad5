import Verif.Spec.OpChain
import Verif.Lemmas.TypeRead
/-!
# The reading of chains of operators
-/

namespace Verif

/-- the tokens of the operands and operators after the first operand -/
def restToks : List (DOp × DExpr) → List GTok
  | [] => []
  | (op, e) :: os => op.tok :: (e.toks ++ restToks os)

/-- operands and operators of a chain -/
def ChainOk (os : List (DOp × DExpr)) : Prop :=
  ∀ o ∈ os, o.1 ≠ .unknown ∧ o.1 ≠ .eq ∧ Writable o.2 ∧ IsClosed o.2

theorem lexes_opRest : ∀ (os : List (DOp × DExpr)), ChainOk os → ∀ rest ts, Sep rest → Lexes rest ts →
    Lexes ((restText os).toList ++ rest) (restToks os ++ ts) ∧ Sep ((restText os).toList ++ rest)
  | [], _, rest, ts, hs, hr => ⟨hr, hs⟩
  | (op, e) :: os, h, rest, ts, hs, hr => by
    obtain ⟨h1, h2, h3, h4⟩ := h (op, e) List.mem_cons_self
    obtain ⟨i1, i2⟩ := lexes_opRest os (fun o ho => h o (List.mem_cons_of_mem _ ho)) rest ts hs hr
    obtain ⟨j1, -⟩ := lexes_dexpr e h3 _ _ i2 i1
    have := lexes_skip1 (lexes_op op h1 j1)
    simp only [restText, restToks, String.toList_append, List.append_assoc, List.cons_append]
    rw [show " ".toList = [' '] from rfl]
    exact ⟨this, sep_space _⟩

theorem restToks_ok : ∀ (os : List (DOp × DExpr)), ChainOk os → ∀ u ∈ restToks os, TokOk u
  | [], _, u, hu => by simp [restToks] at hu
  | (op, e) :: os, h, u, hu => by
    obtain ⟨h1, h2, h3, h4⟩ := h (op, e) List.mem_cons_self
    exact tokOk_cons (by cases op <;> trivial) (tokOk_append (dexpr_ok e h3)
      (restToks_ok os (fun o ho => h o (List.mem_cons_of_mem _ ho)))) u hu

theorem after_restToks (os : List (DOp × DExpr)) (h : ChainOk os) (k) (hk : ∀ u ∈ k, TokOk u) :
    After (restToks os ++ .newline :: k) ∧ LoopStop 5 (restToks os ++ .newline :: k) := by
  have ok := tokOk_append (restToks_ok os h) (tokOk_cons (t := .newline) trivial hk)
  cases os with
  | nil => exact ⟨after_tok (by simp) (by simp) (by simp) ok, .inl rfl, by simp⟩
  | cons o os =>
    obtain ⟨op, e⟩ := o
    obtain ⟨h1, h2, h3, h4⟩ := h (op, e) List.mem_cons_self
    simp only [restToks, List.cons_append] at ok ⊢
    refine ⟨after_tok ?_ ?_ ?_ ok, .inr (.inl (by omega)), ?_⟩ <;> cases op <;> simp [DOp.tok] at h1 h2 ⊢

theorem not_ternary {e : DExpr} (h : IsClosed e) : ¬ IsTernary e := by
  intro h'
  cases e <;> simp [IsTernary, IsClosed] at h h'

theorem loop_chain : ∀ (os : List (DOp × DExpr)), ChainOk os → ∀ k n m x v, v.asExpr = some x →
    (∀ u ∈ k, TokOk u) → (restToks os).length ≤ n → (restToks os).length ≤ m →
    ∃ w, First (exprLoop (exprReadings (n + 1)) 0 m v (restToks os ++ .newline :: k)) w (.newline :: k) ∧
      w.asExpr = some (leftToRight x os)
  | [], _, k, n, m, x, v, hv, hk, _, _ => by
    refine ⟨v, ?_, hv⟩
    have hs : LoopStop 0 (GTok.newline :: k) := ⟨.inl rfl, by simp⟩
    simp only [restToks, List.nil_append, hs.loop]
    exact First.head ..
  | (op, e) :: os, h, k, n, m, x, v, hv, hk, hn, hm => by
    obtain ⟨h1, h2, h3, h4⟩ := h (op, e) List.mem_cons_self
    have hos : ChainOk os := fun o ho => h o (List.mem_cons_of_mem _ ho)
    simp only [restToks, List.length_cons, List.length_append] at hn hm
    obtain ⟨m, rfl⟩ : ∃ m', m = m' + 1 := ⟨m - 1, by omega⟩
    obtain ⟨a1, a2⟩ := after_restToks os hos k hk
    have hb : binaryExpr op v e.val = .expr (.bin op x e) := by
      simp only [binaryExpr, hv, val_asExpr]
    obtain ⟨w, i1, i2⟩ := loop_chain os hos k n m (.bin op x e) (.expr (.bin op x e)) rfl hk (by omega) (by omega)
    refine ⟨w, ?_, i2⟩
    simp only [restToks, List.cons_append, List.append_assoc]
    obtain ⟨post, e'⟩ := loop_op (p := 0) (n := m) (v := v) (r := e.toks ++ (restToks os ++ .newline :: k)) op h1
      (by omega) (exprReadings (n + 1))
    rw [e']
    refine First.left (First.bind (expr_first (read_primary e h3 (not_ternary h4) _ n a1 (.inl h4) (by omega)) a2)
      (Dead.loop' _) ?_)
    simp only [hb]
    exact i1

theorem read_opChain (x : DExpr) (os : List (DOp × DExpr)) (hx : Writable x) (hc : IsClosed x) (h : ChainOk os)
    (k n) (hk : ∀ u ∈ k, TokOk u) (hn : (x.toks ++ restToks os).length ≤ n + 1) :
    ∃ w, First (exprReadings (n + 2) 0 (x.toks ++ (restToks os ++ .newline :: k))) w (.newline :: k) ∧
      w.asExpr = some (leftToRight x os) := by
  simp only [List.length_append] at hn
  have : 0 < x.toks.length := by
    cases x <;> simp [DExpr.toks, IsClosed] at hc ⊢
  obtain ⟨a1, a2⟩ := after_restToks os h k hk
  obtain ⟨w, h1, h2⟩ := loop_chain os h k n (n + 1) x x.val (val_asExpr x) hk (by omega) (by omega)
  refine ⟨w, ?_, h2⟩
  unfold exprReadings
  exact First.bind (read_primary x hx (not_ternary hc) _ (n + 1) a1 (.inl hc) (by omega)) (loop_keepsDead _ _ _) h1

/-- A derivation with one assignment, whose expression is first read as some `w` from the tokens `T`. -/
theorem read_line (y : String) (T : List GTok) (t : FTy) (P : TVal → Prop) (ht : Readable t) (ok : ∀ u ∈ t.toks, TokOk u)
    (hT : 0 < T.length)
    (h : ∀ n, T.length ≤ n + 1 →
      ∃ w, First (exprReadings (n + 2) 0 (T ++ .newline :: t.toks)) w (.newline :: t.toks) ∧ P w) :
    ∃ w, P w ∧ startRule (.ident y.toList :: .sign "=" :: (T ++ .newline :: t.toks)) =
      some (multilineDefinition [(y.toList, w)] (.type t)) := by
  have hh : TypeHead t.toks := by simpa using readable_head t ht []
  have htn : t.toks.head? ≠ some .newline := by
    intro e
    cases ht' : t.toks with
    | nil => simp [ht'] at e
    | cons u r =>
      rw [ht'] at e hh
      simp only [List.head?_cons, Option.some.injEq] at e
      subst e
      simp [TypeHead] at hh
  obtain ⟨N, hN⟩ : ∃ N, (GTok.ident y.toList :: .sign "=" :: (T ++ .newline :: t.toks)).length = N := ⟨_, rfl⟩
  have hN' := hN
  simp only [List.length_cons, List.length_append] at hN
  obtain ⟨n, rfl⟩ : ∃ n', N = n' + 2 := ⟨N - 2, by omega⟩
  obtain ⟨w, h1, hw⟩ := h n (by omega)
  refine ⟨w, hw, start_of (expr_first (p := 0) ?_ trivial)⟩
  rw [hN']
  have e1 : ∃ post, assignmentLine (exprReadings (n + 2))
      (.ident y.toList :: .sign "=" :: (T ++ .newline :: t.toks)) = ((y.toList, w), t.toks) :: post := by
    simp only [assignmentLine, eatSign_self, List.flatMap_cons, List.flatMap_nil, List.append_nil]
    refine First.bindHead (post := []) h1 ?_ ?_
    · intro v d hd
      simp [hd.newlines1]
    · simp [newlines1, newlines_none htn]
  obtain ⟨post, e1⟩ := e1
  obtain ⟨post', e2⟩ := read_assignments [] (by simp) t.toks (n + 1) (n + 2) hh ok (by simp [assignmentToks])
    (by simp [assignmentToks])
  simp only [assignmentToks, List.nil_append] at e2
  have e3 := typeDef_ty t ht [] (n + 2) typeStop_nil (by omega)
  rw [List.append_nil] at e3
  unfold primaryExpr
  rw [e1]
  have e4 : ∀ r : List GTok, eatSign "(" (.ident y.toList :: r) = [] := by intro r; simp [eatSign]
  simp only [e4, List.flatMap_nil, List.nil_append, List.flatMap_cons, e2, List.append_assoc]
  refine First.left (First.bind e3 ?_ ?_)
  · intro v d hd y hy
    have : newlines d = [d] := by
      obtain ⟨u, r, rfl, hc⟩ := hd.cases
      rcases hc with ⟨s, rfl⟩ | ⟨s, rfl⟩ | rfl | rfl | rfl <;> rfl
    simp only [this, List.map_cons, List.map_nil, List.mem_singleton] at hy
    rw [hy]; exact hd
  · simp only [newlines, List.map_cons, List.map_nil, assignmentVals]
    exact First.head ..

theorem parse_chain (y : String) (x : DExpr) (os : List (DOp × DExpr)) (t : FTy) (hy : IsName y)
    (hx : Writable x) (hc : IsClosed x) (h : ChainOk os) (ht : Readable t) :
    parseType (chainText y x os t) = .ok (chainMeaning y (leftToRight x os) t) := by
  have hl : lexText (chainText y x os t).toList =
      .ident y.toList :: .sign "=" :: ((x.toks ++ restToks os) ++ .newline :: t.toks) := by
    have h0 := (lexes_ty t ht [] [] trivial lexes_nil).1
    simp only [List.append_nil] at h0
    obtain ⟨h1, h2⟩ := lexes_opRest os h _ _ (sep_newline _) (lexes_newline h0)
    obtain ⟨h3, -⟩ := lexes_dexpr x hx _ _ h2 h1
    have h4 := lexes_name y hy _ _ (sep_space _) (lexes_skip1 (lexes_op .eq (by simp) h3))
    rw [List.append_assoc]
    refine Eq.trans (congrArg lexText ?_) h4.lexText
    simp only [chainText, String.toList_append, List.append_assoc, DExpr.string, FTy.string]
    rfl
  have ok : ∀ u ∈ t.toks, TokOk u := by
    intro u hu
    refine lexText_ok (chainText y x os t).toList u ?_
    rw [hl]
    exact List.mem_cons_of_mem _ (List.mem_cons_of_mem _ (List.mem_append_right _ (List.mem_cons_of_mem _ hu)))
  have hpos : 0 < x.toks.length := by
    cases x <;> simp [DExpr.toks, IsClosed] at hc ⊢
  obtain ⟨w, h1, h2⟩ := read_line y (x.toks ++ restToks os) t (fun w => w.asExpr = some (leftToRight x os)) ht ok
    (by simp only [List.length_append]; omega) (fun n hn => by
      rw [List.append_assoc]
      exact read_opChain x os hx hc h t.toks n ok hn)
  unfold parseType
  rw [hl, h2]
  simp only [multilineDefinition, TVal.asType, allOf, assignmentOf, h1, String.ofList_toList, chainMeaning]

/-! ## The order of operators -/

theorem spells_left (x : DExpr) (hx : IsAtom x) (os : List (DOp × DExpr)) (h : ∀ o ∈ os, IsAtom o.2) :
    Spells (leftToRight x os) x os := by
  suffices H : ∀ (os : List (DOp × DExpr)) (l : DExpr) (ps : List (DOp × DExpr)), Spells l x ps →
      (∀ o ∈ os, IsAtom o.2) → Spells (leftToRight l os) x (ps ++ os) from H os x [] (.atom x hx) h
  intro os
  induction os with
  | nil => intro l ps hl _; rw [List.append_nil]; exact hl
  | cons o os ih =>
    intro l ps hl ha
    have := ih (.bin o.1 l o.2) (ps ++ [o]) (.bin o.1 l o.2 x ps o.2 [] hl (.atom _ (ha o List.mem_cons_self)))
      (fun p hp => ha p (List.mem_cons_of_mem _ hp))
    rwa [List.append_assoc, List.singleton_append] at this

theorem usual_left (x : DExpr) (hx : IsAtom x) (os : List (DOp × DExpr)) (h : ∀ o ∈ os, IsAtom o.2)
    (hp : NoHigherLater os) : UsualOrder (leftToRight x os) := by
  suffices H : ∀ (os : List (DOp × DExpr)) (l : DExpr), UsualOrder l → (∀ o ∈ os, IsAtom o.2) → NoHigherLater os →
      (∀ o, os.head? = some o → ∀ op' a b, l = .bin op' a b → o.1.precedence ≤ op'.precedence) →
      UsualOrder (leftToRight l os) by
    refine H os x (.atom x hx) h hp ?_
    intro o _ op' a b e
    subst e
    cases hx
  intro os
  induction os with
  | nil => intro l hl _ _ _; exact hl
  | cons o os ih =>
    intro l hl ha hn hh
    have : UsualOrder (.bin o.1 l o.2) := by
      refine .bin _ _ _ hl (.atom _ (ha o List.mem_cons_self)) (hh o rfl) ?_
      intro op' a b e
      have := ha o List.mem_cons_self
      rw [e] at this
      cases this
    refine ih (.bin o.1 l o.2) this (fun p hp => ha p (List.mem_cons_of_mem _ hp)) ?_ ?_
    · cases os with
      | nil => trivial
      | cons p os => exact hn.2
    · intro p hp' op' a b e
      cases os with
      | nil => simp at hp'
      | cons q os =>
        simp only [List.head?_cons, Option.some.injEq] at hp'
        subst hp'
        cases e
        exact hn.1

end Verif
