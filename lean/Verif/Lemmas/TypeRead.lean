import Verif.Lemmas.TypeDerive
/-!
# The reading of the tokens of derivations
-/

namespace Verif

/-- what may come after an expression -/
structure After (k : List GTok) : Prop where
  mark : ∀ k', k = .sign "?" :: k' → Dead k'
  paren : eatSign "(" k = []
  assign : ∀ n s, assignmentLine (exprReadings n) (.ident s :: k) = []
  ok : ∀ t ∈ k, TokOk t

/-- what the visitor returns for an expression -/
def DExpr.val : DExpr → TVal
  | .num v => .num v
  | .name s => .name s
  | e => .expr e

theorem val_asExpr (e : DExpr) : e.val.asExpr = some e := by cases e <;> rfl

/-- the number of conditionals written with `?` one after the other -/
def DExpr.chain : DExpr → Nat
  | .ite true c _ _ => c.chain + 1
  | _ => 0

theorem chain_le : ∀ e : DExpr, e.chain ≤ e.toks.length
  | .ite true c t e => by
    have := chain_le c
    simp only [DExpr.chain, DExpr.toks, List.length_append, List.length_cons]
    omega
  | .ite false _ _ _ => by simp [DExpr.chain]
  | .num _ => by simp [DExpr.chain]
  | .name _ => by simp [DExpr.chain]
  | .bin .. => by simp [DExpr.chain]
  | .not _ => by simp [DExpr.chain]
  | .call .. => by simp [DExpr.chain]

theorem dead_dexpr : ∀ (e : DExpr) (k), Dead (e.toks ++ k)
  | .num _, _ => by simp [DExpr.toks, Dead]
  | .name _, _ => by simp [DExpr.toks, Dead]
  | .bin .., _ => by simp [DExpr.toks, Dead]
  | .ite true c t e, k => by
    simp only [DExpr.toks, List.append_assoc]
    exact dead_dexpr c _
  | .ite false _ _ _, _ => by simp [DExpr.toks, Dead]
  | .not _, _ => by simp [DExpr.toks, Dead]
  | .call .., _ => by simp [DExpr.toks, Dead]

theorem LoopStop.mono {p q k} (h : LoopStop p k) (hpq : p ≤ q) : LoopStop q k := by
  cases k with
  | nil => trivial
  | cons t r =>
    obtain ⟨h1, h2⟩ := h
    refine ⟨?_, ?_⟩
    · rcases h1 with h1 | h1 | h1
      · exact .inl h1
      · exact .inr (.inl (by omega))
      · exact .inr (.inr h1)
    · rcases h2 with h2 | h2
      · exact .inl h2
      · exact .inr (by omega)

/-- a token that may come after an expression and is neither `?` nor `=` nor `(` -/
theorem after_tok {t k} (h1 : t ≠ .sign "?") (h2 : t ≠ .sign "=") (h3 : t ≠ .sign "(")
    (ok : ∀ u ∈ t :: k, TokOk u) : After (t :: k) := by
  refine ⟨?_, by simp [eatSign, h3], ?_, ok⟩
  · intro k' e
    simp only [List.cons.injEq] at e
    exact absurd e.1 h1
  · intro n s
    simp [assignmentLine, eatSign, h2]

theorem tokOk_cons {t : GTok} {k} (h : TokOk t) (hk : ∀ u ∈ k, TokOk u) : ∀ u ∈ t :: k, TokOk u := by
  intro u hu
  rcases List.mem_cons.1 hu with rfl | hu
  · exact h
  · exact hk u hu

theorem tokOk_append {a k : List GTok} (h : ∀ u ∈ a, TokOk u) (hk : ∀ u ∈ k, TokOk u) : ∀ u ∈ a ++ k, TokOk u := by
  intro u hu
  rcases List.mem_append.1 hu with hu | hu
  · exact h u hu
  · exact hk u hu

theorem newlines1_head {r : List GTok} (h : r.head? ≠ some .newline) : newlines1 r = [] := by
  unfold newlines1
  split
  · simp at h
  · rfl

/-- an operator and its right side in parentheses -/
theorem after_op (op : DOp) (ho : op ≠ .unknown) (r : DExpr) (hr : Writable r) (k) (hk : ∀ u ∈ k, TokOk u) :
    After (op.tok :: (r.toks ++ .sign ")" :: k)) := by
  have ok' : ∀ u ∈ r.toks ++ .sign ")" :: k, TokOk u := tokOk_append (dexpr_ok r hr) (tokOk_cons trivial hk)
  have ok : ∀ u ∈ op.tok :: (r.toks ++ .sign ")" :: k), TokOk u :=
    tokOk_cons (by cases op <;> trivial) ok'
  by_cases he : op = .eq
  · subst he
    refine ⟨by intro k' e; simp [DOp.tok] at e, by simp [eatSign, DOp.tok], ?_, ok⟩
    intro n s
    simp only [assignmentLine, DOp.tok, eatSign_self, List.flatMap_cons, List.flatMap_nil, List.append_nil]
    rw [List.flatMap_eq_nil_iff]
    intro x hx
    have := (exprReadings_fine n 0 _ ok' x hx).1
    simp only [List.map_eq_nil_iff]
    exact newlines1_head (eats_inside (dexpr_level r hr) this)
  · exact after_tok (by cases op <;> simp [DOp.tok]) (by cases op <;> simp [DOp.tok] at he ⊢)
      (by cases op <;> simp [DOp.tok]) ok

theorem after_mark (t : DExpr) (k) (hk : ∀ u ∈ t.toks ++ k, TokOk u) : After (.sign "?" :: (t.toks ++ k)) := by
  refine ⟨?_, by simp [eatSign], by intro n s; simp [assignmentLine, eatSign], tokOk_cons trivial hk⟩
  intro k' e
  simp only [List.cons.injEq, true_and] at e
  rw [← e]
  exact dead_dexpr t k

theorem after_rest (es : List DExpr) (hes : ∀ e ∈ es, Writable e) (k) (hk : ∀ u ∈ k, TokOk u) :
    After (DExpr.toksRest es ++ .sign ")" :: k) ∧ LoopStop 0 (DExpr.toksRest es ++ .sign ")" :: k) := by
  have ok := tokOk_append (dexprRest_ok es hes) (tokOk_cons (t := .sign ")") trivial hk)
  cases es with
  | nil =>
    simp only [DExpr.toksRest, List.nil_append] at ok ⊢
    exact ⟨after_tok (by simp) (by simp) (by simp) ok, .inl rfl, by simp⟩
  | cons e es =>
    simp only [DExpr.toksRest, List.cons_append] at ok ⊢
    exact ⟨after_tok (by simp) (by simp) (by simp) ok, .inl rfl, by simp⟩

theorem Dead.loop' {E p n} (g : TVal → TVal) : KeepsDead fun x : TVal × List GTok => exprLoop E p n (g x.1) x.2 := by
  intro v d hd x hx
  simp only [hd.loop] at hx
  rw [List.mem_singleton.1 hx]
  exact hd

/-- what `if` reads after its condition -/
def thenReadings (n : Nat) (x : TVal × List GTok) : Readings TVal :=
  match x.2 with
  | .key "then" :: r =>
      (exprReadings n 0 r).flatMap fun (t, r) =>
      match r with
      | .key "else" :: r => (exprReadings n 3 r).map fun (e, r) => (ifExpr false x.1 t e, r)
      | _ => []
  | _ => []

/-- what `if` reads after its second part -/
def elseReadings (n : Nat) (c : TVal) (x : TVal × List GTok) : Readings TVal :=
  match x.2 with
  | .key "else" :: r => (exprReadings n 3 r).map fun (e, r) => (ifExpr false c x.1 e, r)
  | _ => []

theorem primary_if (n r) : primaryExpr (exprReadings n) n (.key "if" :: r) =
    (exprReadings n 0 r).flatMap (thenReadings n) := by
  have : typeDef (exprReadings n) n (.key "if" :: r) = [] := by
    rw [typeDef_key _ _ _ _ (by decide) (by decide)]; rfl
  simp only [primaryExpr, eatSign, assignmentLine, this]
  simp
  rfl

theorem then_dead (n) : KeepsDead (thenReadings n) := by
  intro v d hd x hx
  obtain ⟨t, r, rfl, hc⟩ := hd.cases
  rcases hc with ⟨s, rfl⟩ | ⟨s, rfl⟩ | rfl | rfl | rfl <;> simp [thenReadings] at hx

theorem else_dead (n c) : KeepsDead (elseReadings n c) := by
  intro v d hd x hx
  obtain ⟨t, r, rfl, hc⟩ := hd.cases
  rcases hc with ⟨s, rfl⟩ | ⟨s, rfl⟩ | rfl | rfl | rfl <;> simp [elseReadings] at hx

theorem then_eq (n c r) : thenReadings n (c, .key "then" :: r) =
    (exprReadings n 0 r).flatMap (elseReadings n c) := by rfl

theorem else_eq (n c t r) : elseReadings n c (t, .key "else" :: r) =
    (exprReadings n 3 r).map fun x => (ifExpr false c t x.1, x.2) := by rfl

theorem primary_not (E n r) : primaryExpr E n (.sign "!" :: r) =
    (E 2 r).map fun x => (notExpr x.1, x.2) := by
  simp [primaryExpr, eatSign, assignmentLine, typeDef]

theorem primary_open (E n r) : ∃ post, primaryExpr E n (.sign "(" :: r) =
    ((E 0 r).flatMap fun x => (eatSign ")" x.2).map fun r => (x.1, r)) ++ post := by
  simp only [primaryExpr, eatSign_self, List.flatMap_cons, List.flatMap_nil, List.append_nil, List.append_assoc]
  exact ⟨_, rfl⟩

/-- what is read after the opening parenthesis of a call -/
def callReadings (n : Nat) (x : List Char) (r : List GTok) : Readings TVal :=
  ((someExprs (exprReadings n) n r).flatMap fun vs => (eatSign ")" vs.2).map fun r => (functionCall x vs.1, r)) ++
    (eatSign ")" r).map fun r => (functionCall x [], r)

theorem primary_name {n x k} (h : After k) :
    First (primaryExpr (exprReadings n) n (.ident x :: k)) (.name (String.ofList x)) k := by
  have e1 := h.assign n x
  have e2 : typeDef (exprReadings n) n (.ident x :: k) = [] := by simp [typeDef]
  have e3 : eatSign "(" (.ident x :: k) = [] := by simp [eatSign]
  simp only [primaryExpr, e1, e2, e3, h.paren, List.flatMap_nil, List.append_nil, List.nil_append]
  cases k with
  | nil => exact First.head ..
  | cons t r =>
    by_cases ht : t = .sign "?"
    · subst ht
      simp only [optMark, List.map_cons, List.map_nil]
      exact First.right (R := [(TVal.name (String.ofList x), r)]) (S := [(TVal.name (String.ofList x), .sign "?" :: r)])
        (by simpa using h.mark r rfl) (First.head ..)
    · have : optMark (t :: r) = [(false, t :: r)] := by
        unfold optMark
        split
        · rename_i e; simp at e; exact absurd e.1 ht
        · rfl
      rw [this]
      exact First.head ..

theorem primary_call {n x r v k} (h : First (callReadings n x r) v k) :
    First (primaryExpr (exprReadings n) n (.ident x :: .sign "(" :: r)) v k := by
  have e1 : assignmentLine (exprReadings n) (.ident x :: .sign "(" :: r) = [] := by simp [assignmentLine, eatSign]
  have e2 : typeDef (exprReadings n) n (.ident x :: .sign "(" :: r) = [] := by simp [typeDef]
  have e3 : eatSign "(" (.ident x :: .sign "(" :: r) = [] := by simp [eatSign]
  simp only [primaryExpr, e1, e2, e3, eatSign_self, List.flatMap_nil, List.flatMap_cons, List.append_nil,
    List.nil_append]
  refine First.right ?_ h
  simp [optMark, Dead]

theorem allOf_vals : ∀ es : List DExpr, allOf TVal.asExpr (es.map DExpr.val) = some es
  | [] => rfl
  | e :: es => by simp [allOf, val_asExpr, allOf_vals es]

theorem lower_self {f : String} (h : ∀ c ∈ f.toList, c.toLower = c) :
    String.ofList (f.toList.map Char.toLower) = f := by
  have : f.toList.map Char.toLower = f.toList := by
    conv_rhs => rw [← List.map_id f.toList]
    exact List.map_congr_left h
  rw [this, String.ofList_toList]

theorem binaryOp_tok (op : DOp) (h : op ≠ .unknown) : binaryOpOf op.tok = some op := by
  cases op <;> simp [DOp.tok, binaryOpOf] at h ⊢

theorem loop_op {p n v r} (op : DOp) (h : op ≠ .unknown) (hp : p ≤ 4) (E) : ∃ post,
    exprLoop E p (n + 1) v (op.tok :: r) =
      ((E 5 r).flatMap fun x => exprLoop E p n (binaryExpr op v x.1) x.2) ++ post := by
  simp only [exprLoop, binaryOp_tok op h, if_pos hp, List.append_assoc]
  exact ⟨_, rfl⟩

theorem loop_mark {p n v r} (hp : p ≤ 1) (E) : ∃ post,
    exprLoop E p (n + 1) v (.sign "?" :: r) =
      ((E 0 r).flatMap fun a => (eatSign ":" a.2).flatMap fun r =>
        (E 2 r).flatMap fun b => exprLoop E p n (ifExpr true v a.1 b.1) b.2) ++ post := by
  simp only [exprLoop, binaryOpOf, hp, and_self, if_true, List.nil_append]
  exact ⟨_, rfl⟩

mutual
theorem read_primary : ∀ (e : DExpr), Writable e → ¬ IsTernary e → ∀ k n, After k →
    (IsClosed e ∨ LoopStop 2 k) → e.toks.length ≤ n →
    First (primaryExpr (exprReadings n) n (e.toks ++ k)) e.val k
  | .num v, _, _, k, n, _, _, _ => by
    have : IsInt64 v.toInt := by
      have h1 := v.le_toInt
      have h2 := v.toInt_lt
      exact ⟨by omega, by omega⟩
    simp only [DExpr.toks, List.cons_append, List.nil_append, primaryExpr, eatSign, assignmentLine, typeDef,
      literalNumber, numOf_int _ this, Int64.ofInt_toInt]
    simp
    exact First.head ..
  | .name s, _, _, k, n, hk, _, _ => by
    have := primary_name (n := n) (x := s.toList) hk
    rw [String.ofList_toList] at this
    exact this
  | .bin op l r, h, _, k, n, hk, _, hn => by
    cases h with
    | bin _ _ _ ho hl hc hr ht =>
      simp only [DExpr.toks, List.length_cons, List.length_append, List.length_nil] at hn
      simp only [DExpr.toks, List.cons_append, List.append_assoc, List.nil_append]
      obtain ⟨post, e⟩ := primary_open (exprReadings n) n (l.toks ++ op.tok :: (r.toks ++ .sign ")" :: k))
      rw [e]
      refine First.left ?_
      obtain ⟨n, rfl⟩ : ∃ n', n = n' + 2 := ⟨n - 2, by omega⟩
      have hclose : After (.sign ")" :: k) :=
        after_tok (by simp) (by simp) (by simp) (tokOk_cons trivial hk.ok)
      have hstop : ∀ p, LoopStop p (.sign ")" :: k) := fun p => ⟨.inl rfl, by simp⟩
      refine First.bind (k := .sign ")" :: k) (v := .expr (.bin op l r)) ?_ (by keeps_dead) ?_
      · unfold exprReadings
        refine First.bind (read_primary l hl ?_ _ (n + 1) (after_op op ho r hr k hk.ok) (.inl hc) (by omega))
          (loop_keepsDead _ _ _) ?_
        · intro h
          cases l <;> simp [IsTernary, IsClosed] at h hc
        · obtain ⟨post, e⟩ := loop_op (p := 0) (n := n) (v := l.val) (r := r.toks ++ .sign ")" :: k) op ho (by omega)
            (exprReadings (n + 1))
          dsimp only
          rw [e]
          refine First.left (First.bind (expr_first (read_primary r hr ht _ n hclose (.inr (hstop 2)) (by omega))
            (hstop 5)) (Dead.loop' _) ?_)
          simp only [(hstop 0).loop, binaryExpr, val_asExpr]
          exact First.head ..
      · simp only [eatSign_self, List.map_cons, List.map_nil]
        exact First.head ..
  | .ite true c t e, h, ht, _, _, _, _, _ => absurd trivial ht
  | .ite false c t e, h, _, k, n, hk, hs, hn => by
    cases h with
    | ite _ _ _ _ hc ht he hne =>
      have hs : LoopStop 2 k := by
        rcases hs with hs | hs
        · exact hs.elim
        · exact hs
      simp only [DExpr.toks, List.length_cons, List.length_append] at hn
      simp only [DExpr.toks, List.cons_append, List.append_assoc]
      rw [primary_if]
      obtain ⟨n, rfl⟩ : ∃ n', n = n' + 1 := ⟨n - 1, by omega⟩
      have ok1 := tokOk_append (dexpr_ok e he) hk.ok
      have ok2 : ∀ u ∈ GTok.key "else" :: (e.toks ++ k), TokOk u := tokOk_cons trivial ok1
      have ok3 := tokOk_append (dexpr_ok t ht) ok2
      have ok4 : ∀ u ∈ GTok.key "then" :: (t.toks ++ .key "else" :: (e.toks ++ k)), TokOk u := tokOk_cons trivial ok3
      refine First.bind (read_expr c hc _ n (after_tok (by simp) (by simp) (by simp) ok4) ⟨.inl rfl, by simp⟩
        (by omega)) (then_dead _) ?_
      rw [then_eq]
      refine First.bind (read_expr t ht _ n (after_tok (by simp) (by simp) (by simp) ok2) ⟨.inl rfl, by simp⟩
        (by omega)) (else_dead _ _) ?_
      rw [else_eq]
      have := (expr_first (p := 3) (read_primary e he hne k n hk (.inr hs) (by omega)) (hs.mono (by omega))).map
        (fun x => ifExpr false c.val t.val x)
      have e : ifExpr false c.val t.val e.val = (DExpr.ite false c t e).val := by
        simp only [ifExpr, val_asExpr]; rfl
      rw [← e]
      exact this
  | .not e, h, _, k, n, hk, hs, hn => by
    cases h with
    | not _ he hne =>
      have hs : LoopStop 2 k := by
        rcases hs with hs | hs
        · exact hs.elim
        · exact hs
      simp only [DExpr.toks, List.length_cons] at hn
      simp only [DExpr.toks, List.cons_append]
      rw [primary_not]
      obtain ⟨n, rfl⟩ : ∃ n', n = n' + 1 := ⟨n - 1, by omega⟩
      have := (expr_first (p := 2) (read_primary e he hne k n hk (.inr hs) (by omega)) hs).map notExpr
      have e : notExpr e.val = (DExpr.not e).val := by
        simp only [notExpr, val_asExpr]; rfl
      rw [← e]
      exact this
  | .call f [], h, _, k, n, hk, _, hn => by
    cases h with
    | call _ _ hf hl hes =>
      simp only [DExpr.toks, DExpr.toksList, List.cons_append, List.nil_append]
      refine primary_call ?_
      have : exprReadings n 0 (.sign ")" :: k) = [] := NoStart.expr (by simp [NoStart]) n 0
      simp only [callReadings, someExprs, this, List.flatMap_nil, List.nil_append, eatSign_self, List.map_cons,
        List.map_nil, functionCall, allOf, lower_self hl]
      exact First.head ..
  | .call f (e :: es), h, _, k, n, hk, _, hn => by
    cases h with
    | call _ _ hf hl hes =>
      simp only [DExpr.toks, DExpr.toksList, List.length_cons, List.length_append, List.length_nil] at hn
      simp only [DExpr.toks, DExpr.toksList, List.cons_append, List.append_assoc, List.nil_append]
      refine primary_call (First.left ?_)
      obtain ⟨n, rfl⟩ : ∃ n', n = n' + 1 := ⟨n - 1, by omega⟩
      have hes' := fun q hq => hes q (List.mem_cons_of_mem e hq)
      obtain ⟨a1, a2⟩ := after_rest es hes' k hk.ok
      refine First.bind (v := e.val :: es.map DExpr.val) (k := .sign ")" :: k) ?_ (by keeps_dead) ?_
      · unfold someExprs
        refine First.bind (read_expr e (hes e List.mem_cons_self) _ n a1 a2 (by omega)) ?_ ?_
        · intro v d hd x hx
          simp only [hd.more, List.map_cons, List.map_nil, List.mem_singleton] at hx
          rw [hx]; exact hd
        · exact (read_more es hes' k n (n + 1) hk.ok (by omega) (by omega)).map fun vs => e.val :: vs
      · have : allOf TVal.asExpr (e.val :: es.map DExpr.val) = some (e :: es) := allOf_vals (e :: es)
        simp only [eatSign_self, List.map_cons, List.map_nil, functionCall, this, lower_self hl]
        exact First.head ..

theorem read_chain : ∀ (e : DExpr), Writable e → ∀ k n, After k → LoopStop 2 k → e.toks.length ≤ n →
    ∀ m w l, First (exprLoop (exprReadings n) 0 m e.val k) w l →
      First ((primaryExpr (exprReadings n) n (e.toks ++ k)).flatMap fun x =>
        exprLoop (exprReadings n) 0 (m + e.chain) x.1 x.2) w l
  | .ite true c t e, h, k, n, hk, hs, hn, m, w, l, hw => by
    cases h with
    | ite _ _ _ _ hc ht he hne =>
      simp only [DExpr.toks, List.length_cons, List.length_append] at hn
      simp only [DExpr.toks, List.cons_append, List.append_assoc, DExpr.chain]
      rw [show m + (c.chain + 1) = (m + 1) + c.chain by omega]
      have ok1 := tokOk_append (dexpr_ok e he) hk.ok
      have ok2 : ∀ u ∈ GTok.sign ":" :: (e.toks ++ k), TokOk u := tokOk_cons trivial ok1
      have ok3 := tokOk_append (dexpr_ok t ht) ok2
      refine read_chain c hc _ n (after_mark t _ ok3) ⟨.inl rfl, .inr (by omega)⟩ (by omega) (m + 1) w l ?_
      obtain ⟨post, e'⟩ := loop_mark (p := 0) (n := m) (v := c.val) (r := t.toks ++ .sign ":" :: (e.toks ++ k))
        (by omega) (exprReadings n)
      rw [e']
      obtain ⟨n, rfl⟩ : ∃ n', n = n' + 1 := ⟨n - 1, by omega⟩
      refine First.left (First.bind (read_expr t ht _ n (after_tok (by simp) (by simp) (by simp) ok2)
        ⟨.inl rfl, by simp⟩ (by omega)) (by keeps_dead) ?_)
      simp only [eatSign_self, List.flatMap_cons, List.flatMap_nil, List.append_nil]
      refine First.bind (expr_first (p := 2) (read_primary e he hne k n hk (.inr hs) (by omega)) hs)
        (Dead.loop' _) ?_
      simp only [ifExpr, val_asExpr]
      exact hw
  | .num v, h, k, n, hk, hs, hn, m, w, l, hw =>
    First.bind (read_primary _ h id k n hk (.inr hs) hn) (loop_keepsDead _ _ _) hw
  | .name v, h, k, n, hk, hs, hn, m, w, l, hw =>
    First.bind (read_primary _ h id k n hk (.inr hs) hn) (loop_keepsDead _ _ _) hw
  | .bin .., h, k, n, hk, hs, hn, m, w, l, hw =>
    First.bind (read_primary _ h id k n hk (.inr hs) hn) (loop_keepsDead _ _ _) hw
  | .ite false _ _ _, h, k, n, hk, hs, hn, m, w, l, hw =>
    First.bind (read_primary _ h id k n hk (.inr hs) hn) (loop_keepsDead _ _ _) hw
  | .not _, h, k, n, hk, hs, hn, m, w, l, hw =>
    First.bind (read_primary _ h id k n hk (.inr hs) hn) (loop_keepsDead _ _ _) hw
  | .call .., h, k, n, hk, hs, hn, m, w, l, hw =>
    First.bind (read_primary _ h id k n hk (.inr hs) hn) (loop_keepsDead _ _ _) hw

theorem read_expr : ∀ (e : DExpr), Writable e → ∀ k n, After k → LoopStop 0 k → e.toks.length ≤ n →
    First (exprReadings (n + 1) 0 (e.toks ++ k)) e.val k
  | e, h, k, n, hk, hs, hn => by
    unfold exprReadings
    have hc := chain_le e
    obtain ⟨m, rfl⟩ : ∃ m, n = m + e.chain := ⟨n - e.chain, by omega⟩
    refine read_chain e h k _ hk (hs.mono (by omega)) hn m e.val k ?_
    simp only [hs.loop]
    exact First.head ..

theorem read_more : ∀ (es : List DExpr), (∀ e ∈ es, Writable e) → ∀ k n m, (∀ u ∈ k, TokOk u) →
    (DExpr.toksRest es).length ≤ n + 1 → (DExpr.toksRest es).length ≤ m →
    First (moreExprs (exprReadings (n + 1)) m (DExpr.toksRest es ++ .sign ")" :: k)) (es.map DExpr.val)
      (.sign ")" :: k)
  | [], _, k, n, m, _, _, _ => by
    simp only [DExpr.toksRest, List.nil_append, List.map_nil]
    cases m with
    | zero => exact First.head ..
    | succ m =>
      simp only [moreExprs, eatSign]
      exact First.head ..
  | u :: us, h, k, n, m, hk, hn, hm => by
    simp only [DExpr.toksRest, List.length_cons, List.length_append] at hn hm
    obtain ⟨m, rfl⟩ : ∃ m', m = m' + 1 := ⟨m - 1, by omega⟩
    have hus := fun v hv => h v (List.mem_cons_of_mem u hv)
    obtain ⟨a1, a2⟩ := after_rest us hus k hk
    simp only [DExpr.toksRest, List.cons_append, List.append_assoc, moreExprs, eatSign_self, List.flatMap_cons,
      List.flatMap_nil, List.append_nil, List.map_cons]
    refine First.left (First.bind (read_expr u (h u List.mem_cons_self) _ n a1 a2 (by omega)) ?_ ?_)
    · intro v d hd x hx
      simp only [hd.more, List.map_cons, List.map_nil, List.mem_singleton] at hx
      rw [hx]; exact hd
    · exact (read_more us hus k n m hk (by omega) (by omega)).map fun vs => u.val :: vs
end

/-! ## Derivations -/

theorem First.bindHead {R : Readings α} {v k} {f : α × List GTok → Readings β} {w l post} (h : First R v k)
    (hf : ∀ v d, Dead d → f (v, d) = []) (hg : f (v, k) = (w, l) :: post) :
    ∃ post, R.flatMap f = (w, l) :: post := by
  obtain ⟨pre, post', e, hp⟩ := h
  have : pre.flatMap f = [] := by
    rw [List.flatMap_eq_nil_iff]
    intro x hx
    exact hf x.1 x.2 (hp x hx)
  rw [e, List.flatMap_append, this, List.flatMap_cons, hg]
  exact ⟨_, rfl⟩

theorem newlines_none {r : List GTok} (h : r.head? ≠ some .newline) : newlines r = [r] := by
  unfold newlines
  split
  · simp at h
  · rfl

theorem read_assignment (x : String) (e : DExpr) (he : Writable e) (k n) (hk : k.head? ≠ some .newline)
    (ok : ∀ u ∈ k, TokOk u) (hn : e.toks.length ≤ n) :
    ∃ post, assignmentLine (exprReadings (n + 1)) (.ident x.toList :: .sign "=" :: (e.toks ++ .newline :: k)) =
      ((x.toList, e.val), k) :: post := by
  simp only [assignmentLine, eatSign_self, List.flatMap_cons, List.flatMap_nil, List.append_nil]
  refine First.bindHead (post := []) (read_expr e he (.newline :: k) n
    (after_tok (by simp) (by simp) (by simp) (tokOk_cons trivial ok)) ⟨.inl rfl, by simp⟩ hn) ?_ ?_
  · intro v d hd
    simp [hd.newlines1]
  · simp [newlines1, newlines_none hk]

/-- what the visitor returns for assignments -/
def assignmentVals (as : List (String × DExpr)) : List (List Char × TVal) := as.map fun a => (a.1.toList, a.2.val)

theorem assignments_head (as : List (String × DExpr)) (k) (hk : TypeHead k) :
    (assignmentToks as ++ k).head? ≠ some .newline := by
  cases as with
  | nil =>
    simp only [assignmentToks, List.nil_append]
    unfold TypeHead at hk
    split at hk <;> simp at hk ⊢
  | cons a as => obtain ⟨x, e⟩ := a; simp [assignmentToks]

theorem assignments_ok (as : List (String × DExpr)) (h : ∀ a ∈ as, IsName a.1 ∧ Writable a.2) :
    ∀ u ∈ assignmentToks as, TokOk u := by
  induction as with
  | nil => simp [assignmentToks]
  | cons a as ih =>
    obtain ⟨x, e⟩ := a
    obtain ⟨hx, he⟩ := h (x, e) List.mem_cons_self
    refine tokOk_cons (by simpa [TokOk] using hx) (tokOk_cons trivial (tokOk_append (dexpr_ok e he)
      (tokOk_cons trivial (ih fun b hb => h b (List.mem_cons_of_mem _ hb)))))

theorem read_assignments : ∀ (as : List (String × DExpr)), (∀ a ∈ as, IsName a.1 ∧ Writable a.2) → ∀ k n m,
    TypeHead k → (∀ u ∈ k, TokOk u) → (assignmentToks as).length ≤ n → (assignmentToks as).length ≤ m →
    ∃ post, moreAssignments (exprReadings (n + 1)) m (assignmentToks as ++ k) = (assignmentVals as, k) :: post
  | [], _, k, n, m, hk, _, _, _ => by
    simp only [assignmentToks, List.nil_append, assignmentVals, List.map_nil]
    cases m with
    | zero => exact ⟨[], rfl⟩
    | succ m =>
      refine ⟨[], ?_⟩
      simp only [moreAssignments]
      have : assignmentLine (exprReadings (n + 1)) k = [] := by
        unfold TypeHead at hk
        split at hk <;> simp [assignmentLine] at hk ⊢
      rw [this]
      rfl
  | (x, e) :: as, h, k, n, m, hk, ok, hn, hm => by
    obtain ⟨hx, he⟩ := h (x, e) List.mem_cons_self
    have has := fun b hb => h b (List.mem_cons_of_mem (x, e) hb)
    simp only [assignmentToks, List.length_cons, List.length_append] at hn hm
    obtain ⟨m, rfl⟩ : ∃ m', m = m' + 1 := ⟨m - 1, by omega⟩
    simp only [assignmentToks, List.cons_append, List.append_assoc, moreAssignments]
    obtain ⟨post, e1⟩ := read_assignment x e he (assignmentToks as ++ k) n (assignments_head as k hk)
      (tokOk_append (assignments_ok as has) ok) (by omega)
    obtain ⟨post', e2⟩ := read_assignments as has k n m hk ok (by omega) (by omega)
    rw [e1, List.flatMap_cons]
    simp only [e2, List.map_cons, List.cons_append]
    exact ⟨_, rfl⟩

theorem allOf_assignments : ∀ as : List (String × DExpr), allOf assignmentOf (assignmentVals as) = some as
  | [] => rfl
  | (x, e) :: as => by
    have := allOf_assignments as
    simp only [assignmentVals] at this
    simp [assignmentVals, allOf, assignmentOf, val_asExpr, this]

theorem read_derivation (a : String × DExpr) (as t) (h : ∀ b ∈ a :: as, IsName b.1 ∧ Writable b.2)
    (ht : Readable t) (ok : ∀ u ∈ t.toks, TokOk u) (n)
    (hn : (assignmentToks (a :: as) ++ t.toks).length ≤ n) :
    First (exprReadings (n + 1) 0 (assignmentToks (a :: as) ++ t.toks)) (.type (.derivation (a :: as) t)) [] := by
  refine expr_first (p := 0) ?_ trivial
  obtain ⟨x, e⟩ := a
  obtain ⟨hx, he⟩ := h (x, e) List.mem_cons_self
  have has := fun b hb => h b (List.mem_cons_of_mem (x, e) hb)
  have hh : TypeHead t.toks := by simpa using readable_head t ht []
  simp only [assignmentToks, List.cons_append, List.length_cons, List.length_append] at hn
  obtain ⟨n, rfl⟩ : ∃ n', n = n' + 1 := ⟨n - 1, by omega⟩
  simp only [assignmentToks, List.cons_append, List.append_assoc]
  obtain ⟨post, e1⟩ := read_assignment x e he (assignmentToks as ++ t.toks) n (assignments_head as _ hh)
    (tokOk_append (assignments_ok as has) ok) (by omega)
  obtain ⟨post', e2⟩ := read_assignments as has t.toks n (n + 1) hh ok (by omega) (by omega)
  have e3 := typeDef_ty t ht [] (n + 1) typeStop_nil (by omega)
  rw [List.append_nil] at e3
  unfold primaryExpr
  rw [e1]
  have e4 : ∀ r : List GTok, eatSign "(" (.ident x.toList :: r) = [] := by intro r; simp [eatSign]
  simp only [e4, List.flatMap_nil, List.nil_append, List.flatMap_cons, e2, List.append_assoc]
  refine First.left (First.bind e3 ?_ ?_)
  · intro v d hd y hy
    have : newlines d = [d] := by
      obtain ⟨u, r, rfl, hc⟩ := hd.cases
      rcases hc with ⟨s, rfl⟩ | ⟨s, rfl⟩ | rfl | rfl | rfl <;> rfl
    simp only [this, List.map_cons, List.map_nil, List.mem_singleton] at hy
    rw [hy]; exact hd
  · have := allOf_assignments ((x, e) :: as)
    simp only [assignmentVals, List.map_cons] at this
    simp only [newlines, List.map_cons, List.map_nil, multilineDefinition, TVal.asType, assignmentVals, this]
    exact First.head ..

/-! ## Whole texts -/

theorem start_of {ts v} (h : First (exprReadings (ts.length + 1) 0 ts) v []) : startRule ts = some v := by
  unfold startRule
  rw [h.find]

theorem parse_readable (t : FTy) (h : Readable t) : parseType t.string = .ok t := by
  have hl := (lexes_ty t h [] [] trivial lexes_nil).1.lexText
  simp only [List.append_nil] at hl
  have hp := typeDef_ty t h [] t.toks.length typeStop_nil (Nat.le_refl _)
  have := expr_of_typeDef (p := 0) (readable_head t h []) hp trivial
  rw [List.append_nil] at this
  unfold parseType
  rw [show t.string.toList = charsOf t.pieces from rfl, hl, start_of this]

theorem parse_return (t : FTy) (h : ReadableReturn t) : parseType t.string = .ok t := by
  cases h with
  | type _ h => exact parse_readable t h
  | derivation a as t h ht =>
    have hl := (lexes_assignments (a :: as) h _ _ (lexes_ty t ht [] [] trivial lexes_nil).1).lexText
    simp only [List.append_nil] at hl
    have hok : ∀ u ∈ t.toks, TokOk u := by
      intro u hu
      refine lexText_ok (charsOf (assignmentPieces (a :: as)) ++ charsOf t.pieces) u ?_
      rw [hl]
      exact List.mem_append_right _ hu
    have := read_derivation a as t h ht hok _ (Nat.le_refl _)
    unfold parseType
    rw [show (FTy.derivation (a :: as) t).string.toList =
      charsOf (assignmentPieces (a :: as)) ++ charsOf t.pieces by
        rw [← charsOf_append]; simp only [FTy.string, FTy.pieces, charsOf], hl, start_of this]

/-! ## Texts that were read -/

mutual
theorem readable_of_parsed : ∀ (t : FTy), Parsed t → Plain t → Readable t
  | .prim .., h, _ => by cases h with | prim _ _ h => exact .prim _ _ h
  | .any .., h, _ => by cases h with | any _ _ h h' => exact .any _ _ h h'
  | .enum .., h, _ => by cases h
  | .single .., h, _ => by cases h with | single _ _ _ h h' => exact .single _ _ _ h h'
  | .decimal .., h, _ => by cases h with | decimal _ _ _ h h1 h2 => exact .decimal _ _ _ h h1 h2
  | .list _ t, h, p => by
    cases h with
    | list _ _ h h1 => cases p with | list _ _ p1 => exact .list _ _ h (readable_of_parsed t h1 p1)
  | .map _ k v, h, p => by
    cases h with
    | map _ _ _ h h1 h2 =>
      cases p with
      | map _ _ _ p1 p2 => exact .map _ _ _ h (readable_of_parsed k h1 p1) (readable_of_parsed v h2 p2)
  | .struct n [], h, p => by cases h
  | .struct n (t :: ts), h, p => by
    cases h with
    | struct _ _ _ h h1 h2 =>
      cases p with
      | struct _ _ p =>
        exact .struct _ _ _ h (readable_of_parsed t h1 (p t List.mem_cons_self))
          (readable_of_parsedList ts h2 fun u hu => p u (List.mem_cons_of_mem _ hu))
  | .func n ps r, h, p => by
    cases p with
    | func _ x _ p1 p2 =>
      cases h with
      | func _ _ _ h h1 h2 =>
        exact .func _ _ _ h (readable_of_parsed x (h1 x List.mem_cons_self) p1) (readable_of_parsed r h2 p2)
  | .udt n v s ps, h, p => by
    cases h with
    | udt _ _ _ h h1 h2 =>
      cases p with
      | udt _ _ _ _ p1 => exact .udt _ _ _ h h1 (readable_of_params ps h2 p1)
  | .derivation .., _, p => by cases p

theorem readable_of_parsedList : ∀ (ts : List FTy), (∀ u ∈ ts, Parsed u) → (∀ u ∈ ts, Plain u) →
    ∀ u ∈ ts, Readable u
  | [], _, _, u, hu => by simp at hu
  | t :: ts, h, p, u, hu => by
    rcases List.mem_cons.1 hu with e | hu
    · rw [e]
      exact readable_of_parsed t (h t List.mem_cons_self) (p t List.mem_cons_self)
    · exact readable_of_parsedList ts (fun v hv => h v (List.mem_cons_of_mem _ hv))
        (fun v hv => p v (List.mem_cons_of_mem _ hv)) u hu

theorem readable_of_params : ∀ (ps : List FParam), (∀ u ∈ ps, ParsedParam u) → (∀ u ∈ ps, PlainParam u) →
    ∀ u ∈ ps, ReadableParam u
  | [], _, _, u, hu => by simp at hu
  | q :: ps, h, p, u, hu => by
    rcases List.mem_cons.1 hu with e | hu
    · rw [e]
      exact readable_of_param q (h q List.mem_cons_self) (p q List.mem_cons_self)
    · exact readable_of_params ps (fun v hv => h v (List.mem_cons_of_mem _ hv))
        (fun v hv => p v (List.mem_cons_of_mem _ hv)) u hu

theorem readable_of_param : ∀ (q : FParam), ParsedParam q → PlainParam q → ReadableParam q
  | .dataType t, h, p => by
    cases h with
    | dataType _ h => cases p with | dataType _ p => exact .dataType _ (readable_of_parsed t h p)
  | .integer _, _, _ => .integer _
  | .string _, h, _ => by cases h with | string _ h => exact .string _ h
end

mutual
theorem writable_of_parsed : ∀ (e : DExpr), ParsedExpr e → PlainExpr e → Writable e
  | .num _, _, _ => .num _
  | .name _, h, _ => by cases h with | name _ h => exact .name _ h
  | .bin op l r, h, p => by
    cases h with
    | bin _ _ _ ho hl hr =>
      cases p with
      | bin _ _ _ p1 p2 p3 p4 =>
        exact .bin _ _ _ ho (writable_of_parsed l hl p1) p2 (writable_of_parsed r hr p3) p4
  | .ite b c t e, h, p => by
    cases h with
    | ite _ _ _ _ h1 h2 h3 =>
      cases p with
      | ite _ _ _ _ p1 p2 p3 p4 =>
        exact .ite _ _ _ _ (writable_of_parsed c h1 p1) (writable_of_parsed t h2 p2) (writable_of_parsed e h3 p3) p4
  | .not e, h, p => by
    cases h with
    | not _ h => cases p with | not _ p1 p2 => exact .not _ (writable_of_parsed e h p1) p2
  | .call f es, h, p => by
    cases h with
    | call _ _ h1 h2 h3 => cases p with | call _ _ p => exact .call _ _ h1 h2 (writable_of_parsedList es h3 p)

theorem writable_of_parsedList : ∀ (es : List DExpr), (∀ u ∈ es, ParsedExpr u) → (∀ u ∈ es, PlainExpr u) →
    ∀ u ∈ es, Writable u
  | [], _, _, u, hu => by simp at hu
  | t :: ts, h, p, u, hu => by
    rcases List.mem_cons.1 hu with e | hu
    · rw [e]
      exact writable_of_parsed t (h t List.mem_cons_self) (p t List.mem_cons_self)
    · exact writable_of_parsedList ts (fun v hv => h v (List.mem_cons_of_mem _ hv))
        (fun v hv => p v (List.mem_cons_of_mem _ hv)) u hu
end

theorem return_of_parsed (t : FTy) (h : Parsed t) (p : PlainReturn t) : ReadableReturn t := by
  cases p with
  | type _ p => exact .type _ (readable_of_parsed t h p)
  | derivation as u p1 p2 =>
    cases h with
    | derivation a as _ h1 h2 =>
      exact .derivation _ _ _ (fun b hb => ⟨(h1 b hb).1, writable_of_parsed _ (h1 b hb).2 (p1 b hb)⟩)
        (readable_of_parsed u h2 p2)

end Verif
