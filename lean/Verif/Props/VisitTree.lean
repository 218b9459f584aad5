import Verif.Lemmas.VisitMeaning
import Verif.Props.RowsSame
/-!
# C124, C125: rewriting whole expressions with `Visit`

C124: rewriting an expression recursively (see `Verif.Spec.VisitTree` for the program) applies the step
to every subexpression, innermost first, leaves the original as it was, and does not panic when the step
does not. C125: if the step keeps type and values of what it is given, so does the rewriting.
-/

namespace Verif

/-- C124 in full. -/
def C124_statement : Prop :=
  ∀ (σ : Type) (tag : String → EArg) (step : HVisitor σ) (F : Expr → Expr), tag "nil" = .nil →
    step.Does tag F (· ≠ .nil) False → ∀ e : Expr, ∃ N, ∀ n, N ≤ n →
    ∀ (m : Known) (h : Heap) (p : Ptr) (s : σ), m.Of h → InMem tag m e p →
      ∃ q h' s', rewriteWith step n p h s = .ok (q, h', s') ∧ Extends h h' ∧
        InMem tag (m.after h h') (e.everywhere F) q

/-- **C124 (one call).** Given a visitor that replaces the children of an expression by what `F` says,
possibly allocating memory, `Visit` leaves existing cells as they are and returns an expression of the
same kind with each child replaced. It panics only when the visitor does or the expression `Breaks`.
Missing: sort fields and partitions of window functions, roots of field references; `Breaks`. -/
theorem C124_visit_partial (tag : String → EArg) (ht : tag "nil" = .nil) (f : HVisitor σ)
    (F : Expr → Expr) (bad : Prop) (e : Expr) (hf : f.Does tag F (· ∈ e.kids) bad)
    (hb : e.Breaks F → bad) (m : Known) (h : Heap) (a : Addr) (s : σ) (ho : m.Of h)
    (he : InMem tag m e (some a)) :
    match visit litAt f a h s with
    | .ok (q, h', _) => Extends h h' ∧ InMem tag (m.after h h') (e.visited F) q
    | _ => bad := by
  have := visit_runs ht ho he (fun c hc => doesOn_of hf hc) hb s
  cases hc : visit litAt f a h s with
  | ok r => rw [hc] at this; exact this
  | err => rw [hc] at this; exact this
  | panic => rw [hc] at this; exact this

/-- **C124 (result).** Whatever the recursive rewriting returns is the expression with the step applied
to every node handed to a visitor, innermost first; existing cells stay as they are. Missing: sort fields
and partitions of window functions, roots of field references. -/
theorem C124_result_partial (tag : String → EArg) (ht : tag "nil" = .nil) (step : HVisitor σ)
    (F : Expr → Expr) (hs : step.Does tag F (· ≠ .nil) True) (n : Nat) (e : Expr) (m : Known) (h h' : Heap)
    (p q : Ptr) (s s' : σ) (ho : m.Of h) (he : InMem tag m e p)
    (hr : rewriteWith step n p h s = .ok (q, h', s')) :
    Extends h h' ∧ InMem tag (m.after h h') (e.bottomUp F) q := by
  have := rewriteWith_does ht hs n e (fun _ => trivial) (fun _ _ _ => trivial) m h p ho he s
  rw [hr] at this
  exact this

/-- **C124 (no panic).** With a step that does not panic, the rewriting ends and does not panic, unless
some node is a switch of which a label becomes something other than a literal, or a multi-or-list with
options of which all values stay the same. -/
theorem C124_ends_partial (tag : String → EArg) (ht : tag "nil" = .nil) (step : HVisitor σ)
    (F : Expr → Expr) (hs : step.Does tag F (· ≠ .nil) False) (e : Expr)
    (hb : ∀ d, Below e d → ¬ d.Breaks (Expr.bottomUp F)) :
    ∃ N, ∀ n, N ≤ n → ∀ (m : Known) (h : Heap) (p : Ptr) (s : σ), m.Of h → InMem tag m e p →
      ∃ q h' s', rewriteWith step n p h s = .ok (q, h', s') ∧ Extends h h' ∧
        InMem tag (m.after h h') (e.bottomUp F) q := by
  refine ⟨sizeOf e + 1, fun n hn m h p s ho he => ?_⟩
  have := rewriteWith_does ht hs n e (by omega) hb m h p ho he s
  cases hc : rewriteWith step n p h s with
  | ok r => rw [hc] at this; exact ⟨r.1, r.2.1, r.2.2, rfl, this⟩
  | err => rw [hc] at this; exact this.elim
  | panic => rw [hc] at this; exact this.elim

/-- **C124 (every subexpression).** Where no node hides subexpressions from visitors, this is the step
applied to every subexpression. -/
theorem C124_every (F : Expr → Expr) (e : Expr) (hh : ∀ d, Below e d → ¬ d.Hides) :
    e.bottomUp F = e.everywhere F :=
  everywhere_bottomUp F (sizeOf e + 1) e (by omega) hh

/-! ### a step: literals are replaced by a given one -/

/-- replace literals -/
def litStep (b : Lit) : HVisitor Unit
  | none => pure none
  | some a => readNode a >>= fun n =>
      match n with
      | .literal _ => allocNode (.literal b)
      | _ => pure (some a)

/-- ... in a tree -/
def toLit (b : Lit) : Expr → Expr
  | .lit _ => .lit b
  | e => e

theorem litStep_does (tag : String → EArg) (b : Lit) (bad : Prop) :
    (litStep b).Does tag (toLit b) (· ≠ .nil) bad := by
  refine does_of fun e he m h p ho hp => ?_
  rcases inMem_node hp with ⟨-, rfl⟩ | ⟨a, n, rfl, h1, h2⟩
  · exact absurd rfl he
  · refine runs_step (a := n) (h' := h) (fun s => readNode_ok (ho _ _ h1) s) ?_
    by_cases hl : ∃ l, e = .lit l
    · obtain ⟨l, rfl⟩ := hl
      simp only [InMem] at hp
      obtain ⟨a', h3, h4⟩ := hp
      cases h3
      rw [h1] at h4
      cases h4
      refine runs_node ⟨.app h _, ?_⟩
      simp only [toLit, InMem]
      exact ⟨_, rfl, after_new (Nat.le_refl _) (by simp)⟩
    · have hn : ∀ l, n ≠ .literal l := by
        rintro l rfl
        exact hl ⟨l, h2⟩
      have ht : toLit b e = e := by
        cases e <;> simp [toLit]
        exact absurd ⟨_, rfl⟩ hl
      rw [ht]
      have hr : Returns tag m h e (some a) h :=
        ⟨.refl h, inMem_mono ((Work.start ho).le_after (.refl h)) _ _ hp⟩
      cases n <;> first | exact absurd rfl (hn _) | exact runs_pure hr

/-- what non-expression arguments are, in the examples -/
def noTags : String → EArg := fun _ => .nil

/-- two literals -/
def litA : Lit := .prim (.bool true) (.prim .boolean 2 0)
/-- ... -/
def litB : Lit := .prim (.bool false) (.prim .boolean 2 0)
theorem litA_ne_litB : litA ≠ litB := by simp [litA, litB]

/-- A window function with one partition expression, in memory. -/
def exPart (a : FnAttrs) (w : WinAttrs) : Expr := .window a w [] [] [.lit litA]
/-- ... -/
def exPartHeap (a : FnAttrs) (w : WinAttrs) : Heap :=
  [.node (.literal litA), .arr [], .arr [], .arr [.ptr (some 0)], .node (.window a w 1 2 3)]

theorem exPart_inMem (a : FnAttrs) (w : WinAttrs) :
    InMem noTags (fun i => (exPartHeap a w)[i]?) (exPart a w) (some 4) := by
  simp only [exPart, InMem]
  refine ⟨4, 1, 2, 3, [], [], [.ptr (some 0)], rfl, rfl, rfl, rfl, rfl, ?_, ?_, ?_⟩
  · simp only [ArgsInMem]
  · simp only [SortsInMem]
  · simp only [ListInMem, InMem]
    exact ⟨some 0, [], rfl, ⟨0, rfl, rfl⟩, rfl⟩

/-- C124 fails: partition expressions of window functions are not rewritten. -/
theorem C124_negation_window (a : FnAttrs) (w : WinAttrs) : ¬ C124_statement := by
  intro hst
  obtain ⟨N, hN⟩ := hst Unit noTags (litStep litB) (toLit litB) rfl (litStep_does _ _ _) (exPart a w)
  obtain ⟨q, h', s', h1, -, h3⟩ := hN N (Nat.le_refl N) _ (exPartHeap a w) (some 4) ()
    (fun _ _ h => h) (exPart_inMem a w)
  have h4 := (C124_result_partial noTags rfl (litStep litB) (toLit litB) (litStep_does _ _ _) N _ _ _ h'
    (some 4) q () s' (fun _ _ h => h) (exPart_inMem a w) h1).2
  have := inMem_unique _ _ _ h4 h3
  simp [exPart, Expr.everywhere, Expr.bottomUp, Expr.everywhereList, ESort.everywhere,
    EArg.everywhere, EArg.bottomUp, toLit] at this
  exact litA_ne_litB this.symm

/-- A multi-or-list: a parameter is compared with a literal. -/
def exMulti : Expr := .multiOr [.dynParam (.prim .boolean 2 0) 0] [.mk [.lit litA]]
/-- ... -/
def exMultiHeap : Heap :=
  [.node (.dynParam (.prim .boolean 2 0) 0), .arr [.ptr (some 0)], .node (.literal litA),
    .arr [.ptr (some 2)], .arr [.row (some 3)], .node (.multiOr 1 4)]

theorem exMulti_inMem : InMem noTags (fun i => exMultiHeap[i]?) exMulti (some 5) := by
  simp only [exMulti, InMem]
  refine ⟨5, 1, 4, [.ptr (some 0)], [.row (some 3)], rfl, rfl, rfl, rfl, ?_, ?_⟩
  · simp only [ListInMem, InMem]
    exact ⟨some 0, [], rfl, ⟨0, rfl, rfl⟩, rfl⟩
  · simp only [RowsInMem, ListInMem, InMem]
    exact ⟨some 3, [], rfl, .inr ⟨3, [.ptr (some 2)], rfl, rfl, some 2, [], rfl, ⟨2, rfl, rfl⟩, rfl⟩, rfl⟩

/-- C124 fails: when options of a multi-or-list are rewritten and its values stay, the rewriting panics,
however deep it may go. -/
theorem C124_negation_multiOr : ∀ n, rewriteWith (litStep litB) n (some 5) exMultiHeap () = .panic
  | 0 => rfl
  | 1 => rfl
  | n + 2 => by
    have k1 : rewriteWith (litStep litB) (n + 1) (some 0) exMultiHeap ()
        = .ok (some 0, exMultiHeap, ()) := rfl
    have k2 : rewriteWith (litStep litB) (n + 1) (some 2) exMultiHeap ()
        = .ok (some 6, exMultiHeap ++ [.node (.literal litB)], ()) := rfl
    have r1 : readArr (σ := Unit) 1 exMultiHeap () = .ok ([.ptr (some 0)], exMultiHeap, ()) := rfl
    have r4 : readArr (σ := Unit) 4 exMultiHeap () = .ok ([.row (some 3)], exMultiHeap, ()) := rfl
    have rr : readRows (σ := Unit) [.row (some 3)] exMultiHeap ()
        = .ok ([[.ptr (some 2)]], exMultiHeap, ()) := rfl
    have e1 : readNode (σ := Unit) 5 exMultiHeap () = .ok (.multiOr 1 4, exMultiHeap, ()) := rfl
    have e2 : ptrElem (rewriteWith (litStep litB) (n + 1)) (.ptr (some 0)) exMultiHeap ()
        = .ok (.ptr (some 0), exMultiHeap, ()) := by
      simp only [ptrElem, callVisit, vm_bind, k1, Res.ok_bind, vm_pure]
    have e3 : ptrElem (rewriteWith (litStep litB) (n + 1)) (.ptr (some 2)) exMultiHeap ()
        = .ok (.ptr (some 6), exMultiHeap ++ [.node (.literal litB)], ()) := by
      simp only [ptrElem, callVisit, vm_bind, k2, Res.ok_bind, vm_pure]
    have e4 : multiInner (rewriteWith (litStep litB) (n + 1)) [.ptr (some 0)] [[.ptr (some 2)]] 0
        [.ptr (some 2)] 0 none exMultiHeap () = .panic := by
      rw [multiInner, vm_bind, e3, Res.ok_bind]
      exact multiInner_change (by decide) (by decide)
    have e5 : multiOuter (rewriteWith (litStep litB) (n + 1)) [.ptr (some 0)] [[.ptr (some 2)]]
        [[.ptr (some 2)]] 0 none exMultiHeap () = .panic := by
      rw [multiOuter, multiMakeRow, vm_bind, vm_pure, Res.ok_bind, vm_bind, e4, Res.panic_bind]
    simp only [rewriteWith, visit, vm_bind, e1, Res.ok_bind, visitMultiOr, r1, r4, rr, cowLoop, e2,
      vm_pure, ne_eq, not_true, if_false, e5, Res.panic_bind]

/-- C124 fails for this reason alone. -/
theorem C124_negation : ¬ C124_statement := by
  intro hst
  obtain ⟨N, hN⟩ := hst Unit noTags (litStep litB) (toLit litB) rfl (litStep_does _ _ _) exMulti
  obtain ⟨q, h', s', h1, -⟩ := hN N (Nat.le_refl N) _ exMultiHeap (some 5) ()
    (fun _ _ h => h) exMulti_inMem
  rw [C124_negation_multiOr] at h1
  cases h1

/-! ### a concrete case meeting the hypotheses -/

/-- `if(a) then cast(a) else [a, parameter]`, with the literal shared, in memory -/
def exNested : Expr :=
  .ifThen [.mk (.lit litA) (.cast (.prim .boolean 1 0) (.lit litA) 0)]
    (.listE false 0 [.lit litA, .dynParam (.prim .boolean 2 0) 0])
/-- ... -/
def exNestedHeap : Heap :=
  [.node (.literal litA), .node (.cast (.prim .boolean 1 0) (some 0) 0), .arr [.pair (some 0) (some 1)],
    .node (.dynParam (.prim .boolean 2 0) 0), .arr [.ptr (some 0), .ptr (some 3)],
    .node (.listE false 0 4), .node (.ifThen 2 (some 5))]

theorem exNested_inMem : InMem noTags (fun i => exNestedHeap[i]?) exNested (some 6) := by
  simp only [exNested, InMem]
  refine ⟨6, 2, [.pair (some 0) (some 1)], some 5, rfl, rfl, rfl, ?_, ?_⟩
  · simp only [PairsInMem, InMem]
    exact ⟨some 0, some 1, [], rfl, ⟨0, rfl, rfl⟩, ⟨1, some 0, rfl, rfl, 0, rfl, rfl⟩, rfl⟩
  · refine ⟨5, 4, [.ptr (some 0), .ptr (some 3)], rfl, rfl, rfl, ?_⟩
    simp only [ListInMem, InMem]
    exact ⟨some 0, [.ptr (some 3)], rfl, ⟨0, rfl, rfl⟩, some 3, [], rfl, ⟨3, rfl, rfl⟩, rfl⟩

theorem exNested_below {e d : Expr} (hd : Below e d) : (e = exNested ∨ e = .lit litA ∨
    e = .dynParam (.prim .boolean 2 0) 0 ∨ e = .cast (.prim .boolean 1 0) (.lit litA) 0 ∨
    e = .listE false 0 [.lit litA, .dynParam (.prim .boolean 2 0) 0]) →
    ¬ d.Breaks (Expr.bottomUp (toLit litB)) ∧ ¬ d.Hides := by
  induction hd with
  | refl e => rintro (rfl | rfl | rfl | rfl | rfl) <;> simp [exNested, Expr.Breaks, Expr.Hides]
  | kid e c d hc _ ih =>
    intro he
    apply ih
    rcases he with rfl | rfl | rfl | rfl | rfl <;> simp [exNested, Expr.kids] at hc
    · rcases hc with rfl | rfl | rfl <;> simp
    · simp [hc]
    · rcases hc with rfl | rfl <;> simp

/-- One call: the default is not looked into, the condition is replaced. -/
example : match visit litAt (litStep litB) 6 exNestedHeap () with
    | .ok (q, h', _) => Extends exNestedHeap h' ∧
        InMem noTags (Known.after (fun i => exNestedHeap[i]?) exNestedHeap h')
          (.ifThen [.mk (.lit litB) (.cast (.prim .boolean 1 0) (.lit litA) 0)]
            (.listE false 0 [.lit litA, .dynParam (.prim .boolean 2 0) 0])) q
    | _ => False := by
  refine C124_visit_partial noTags rfl (litStep litB) (toLit litB) False exNested ?_
    (fun hb => by simp [exNested, Expr.Breaks] at hb) _ _ _ _
    (fun _ _ h => h) exNested_inMem
  intro m h e p s he
  refine litStep_does noTags litB False m h e p s ?_
  simp [exNested, Expr.kids] at he
  rcases he with rfl | rfl | rfl <;> simp

/-- Nothing is hidden in it. -/
example : exNested.bottomUp (toLit litB) = exNested.everywhere (toLit litB) :=
  C124_every _ _ fun _ hd => (exNested_below hd (.inl rfl)).2

/-- It is rewritten to the same with the other literal. -/
example : ∃ N, ∀ n, N ≤ n →
    ∃ q h' s', rewriteWith (litStep litB) n (some 6) exNestedHeap () = .ok (q, h', s') ∧
      Extends exNestedHeap h' ∧ InMem noTags (Known.after (fun i => exNestedHeap[i]?) exNestedHeap h')
        (.ifThen [.mk (.lit litB) (.cast (.prim .boolean 1 0) (.lit litB) 0)]
          (.listE false 0 [.lit litB, .dynParam (.prim .boolean 2 0) 0])) q := by
  obtain ⟨N, hN⟩ := C124_ends_partial noTags rfl (litStep litB) (toLit litB) (litStep_does _ _ _) exNested
    fun d hd => (exNested_below hd (.inl rfl)).1
  refine ⟨N, fun n hn => ?_⟩
  obtain ⟨q, h', s', h1, h2, h3⟩ := hN n hn _ exNestedHeap (some 6) () (fun _ _ h => h) exNested_inMem
  refine ⟨q, h', s', h1, h2, ?_⟩
  simpa [exNested, Expr.bottomUp, EPair.bottomUp, Expr.bottomUpList, toLit] using h3

/-! ## C125 -/

/-- **C125 (one call).** When the visitor replaces the children by expressions with the same type and
values, what `Visit` returns has the type and values of the original. -/
theorem C125_visit (tag : String → EArg) (ht : tag "nil" = .nil) (f : HVisitor σ) (F : Expr → Expr)
    (e : Expr) (hf : f.Does tag F (· ∈ e.kids) True) (hF : ∀ c ∈ e.kids, c.SameMeaning (F c))
    (m : Known) (h h' : Heap) (a : Addr) (q : Ptr) (s s' : σ) (ho : m.Of h)
    (he : InMem tag m e (some a)) (hr : visit litAt f a h s = .ok (q, h', s')) :
    ∃ e', InMem tag (m.after h h') e' q ∧ e.SameMeaning e' := by
  have := C124_visit_partial tag ht f F True e hf (fun _ => trivial) m h a s ho he
  rw [hr] at this
  exact ⟨_, this.2, visited_same e hF⟩

/-- **C125 (recursively).** When the step keeps type and values of every expression, so does the
recursive rewriting, and the original stays where it was. -/
theorem C125_rewrite (tag : String → EArg) (ht : tag "nil" = .nil) (step : HVisitor σ) (F : Expr → Expr)
    (hs : step.Does tag F (· ≠ .nil) True) (hF : ∀ e : Expr, e ≠ .nil → e.SameMeaning (F e)) (n : Nat)
    (e : Expr) (m : Known) (h h' : Heap) (p q : Ptr) (s s' : σ) (ho : m.Of h) (he : InMem tag m e p)
    (hr : rewriteWith step n p h s = .ok (q, h', s')) :
    (∃ e', InMem tag (m.after h h') e' q ∧ e.SameMeaning e') ∧ InMem tag (m.after h h') e p := by
  have := C124_result_partial tag ht step F hs n e m h h' p q s s' ho he hr
  exact ⟨⟨_, this.2, bottomUp_same hF (sizeOf e + 1) e (by omega)⟩,
    inMem_mono ((Work.start ho).le_after this.1) _ _ he⟩

/-- **C125 (plans).** When all expressions of a tree of relations are rewritten in this way, its columns
and rows stay the same (with C123). -/
theorem C125_plan (sh : Sharing) (F : Expr → Expr) (same : Expr → Bool)
    (hF : ∀ e : Expr, e ≠ .nil → e.SameMeaning (F e)) (r out : Rel)
    (h : RewrittenTree sh (fun e => .ok (e.bottomUp F, same e)) r out) :
    out.recordType = r.recordType ∧ ∀ g vs, out.Yields g vs ↔ r.Yields g vs := by
  refine C123_rows sh _ r out ?_ h
  intro e e' s he
  cases he
  exact bottomUp_same hF (sizeOf e + 1) e (by omega)

/-- A step: an if without conditions becomes its default. -/
def elseStep : HVisitor Unit
  | none => pure none
  | some a => readNode a >>= fun n =>
      match n with
      | .ifThen ifs (some els) => readArr ifs >>= fun l => if l = [] then pure (some els) else pure (some a)
      | _ => pure (some a)

/-- ... in a tree -/
def toElse : Expr → Expr
  | .ifThen [] els => if els.isNil then .ifThen [] els else els
  | e => e

theorem toElse_same (e : Expr) (_ : e ≠ .nil) : e.SameMeaning (toElse e) := by
  unfold toElse
  split
  · rename_i els
    split
    · exact sameMeaning_refl _
    · rename_i hn
      refine ⟨by rw [Bool.not_eq_true] at hn; rw [hn]; simp [Expr.isNil], by simp only [Expr.getType], fun w v => ?_⟩
      simp [Expr.Yields, EPair.YieldsFirst, EPair.NoneTrue]
  · exact sameMeaning_refl _

theorem elseStep_does (tag : String → EArg) (bad : Prop) :
    elseStep.Does tag toElse (· ≠ .nil) bad := by
  refine does_of fun e he m h p ho hp => ?_
  rcases inMem_node hp with ⟨-, rfl⟩ | ⟨a, n, rfl, h1, h2⟩
  · exact absurd rfl he
  · refine runs_step (a := n) (h' := h) (fun s => readNode_ok (ho _ _ h1) s) ?_
    have hle := (Work.start ho).le_after (.refl h)
    have hr : Returns tag m h e (some a) h := ⟨.refl h, inMem_mono hle _ _ hp⟩
    by_cases hi : ∃ ifs els, e = .ifThen ifs els
    · obtain ⟨ifs, els, rfl⟩ := hi
      simp only [InMem] at hp
      obtain ⟨a', b, l, q, h3, h4, h5, h6, h7⟩ := hp
      cases h3
      rw [h1] at h4
      cases h4
      cases q with
      | none =>
        rcases inMem_node h7 with ⟨-, rfl⟩ | ⟨_, _, h8, -⟩
        · have : toElse (.ifThen ifs .nil) = .ifThen ifs .nil := by
            cases ifs <;> simp [toElse, Expr.isNil]
          rw [this]
          exact runs_pure hr
        · cases h8
      | some q =>
        refine runs_readArr (ho _ _ h5) ?_
        have hel : els.isNil = false := by
          cases els <;> simp [Expr.isNil]
          simp [InMem] at h7
        cases ifs with
        | nil =>
          simp only [PairsInMem] at h6
          rw [if_pos h6]
          simp only [toElse, hel, Bool.false_eq_true, if_false]
          exact runs_pure ⟨.refl h, inMem_mono hle _ _ h7⟩
        | cons x xs =>
          have : l ≠ [] := by
            rintro rfl
            cases x
            simp [PairsInMem] at h6
          rw [if_neg this]
          exact runs_pure hr
    · have ht : toElse e = e := by
        cases e <;> simp [toElse]
        exact absurd ⟨_, _, rfl⟩ hi
      rw [ht]
      cases n <;> try exact runs_pure hr
      obtain ⟨ifs, els, _, h3, _⟩ := h2
      exact absurd ⟨_, _, h3⟩ hi

/-- `cast(if else a)`, in memory -/
def exElse : Expr := .cast (.prim .boolean 1 0) (.ifThen [] (.lit litA)) 0
/-- ... -/
def exElseHeap : Heap :=
  [.node (.literal litA), .arr [], .node (.ifThen 1 (some 0)), .node (.cast (.prim .boolean 1 0) (some 2) 0)]

theorem exElse_inMem : InMem noTags (fun i => exElseHeap[i]?) exElse (some 3) := by
  simp only [exElse, InMem, PairsInMem]
  exact ⟨3, some 2, rfl, rfl, 2, 1, [], some 0, rfl, rfl, rfl, rfl, 0, rfl, rfl⟩

/-- One call gives a new expression of the same meaning. -/
example : ∃ h', visit litAt elseStep 3 exElseHeap () = .ok (some 4, h', ()) ∧
    ∃ e', InMem noTags (Known.after (fun i => exElseHeap[i]?) exElseHeap h') e' (some 4) ∧
      exElse.SameMeaning e' := by
  have hr : visit litAt elseStep 3 exElseHeap ()
      = .ok (some 4, exElseHeap ++ [.node (.cast (.prim .boolean 1 0) (some 0) 0)], ()) := rfl
  refine ⟨_, hr, C125_visit noTags rfl elseStep toElse exElse ?_ ?_ _ _ _ _ _ _ _ (fun _ _ h => h)
    exElse_inMem hr⟩
  · intro m h e p s he
    refine elseStep_does noTags True m h e p s ?_
    simp [exElse, Expr.kids] at he
    rw [he]; simp
  · intro c hc
    refine toElse_same c ?_
    simp [exElse, Expr.kids] at hc
    rw [hc]; simp

/-- It is rewritten to a new expression of the same meaning. -/
example : ∃ h', rewriteWith elseStep 4 (some 3) exElseHeap () = .ok (some 4, h', ()) ∧
    ∃ e', InMem noTags (Known.after (fun i => exElseHeap[i]?) exElseHeap h') e' (some 4) ∧
      exElse.SameMeaning e' := by
  have hr : rewriteWith elseStep 4 (some 3) exElseHeap ()
      = .ok (some 4, exElseHeap ++ [.node (.cast (.prim .boolean 1 0) (some 0) 0)], ()) := rfl
  exact ⟨_, hr, (C125_rewrite noTags rfl elseStep toElse (elseStep_does _ _) toElse_same 4 exElse _ _ _ _ _
    _ _ (fun _ _ h => h) exElse_inMem hr).1⟩

/-- A filter whose condition is such an if. -/
example (sh : Sharing) (g : Engine) (vs : List Val) :
    (exFiltered sampleCond).Yields g vs ↔ (exFiltered (.ifThen [] sampleCond)).Yields g vs := by
  refine (C125_plan sh toElse (fun _ => false) toElse_same _ _ ?_).2 g vs
  have hc : (Expr.ifThen [] sampleCond).bottomUp toElse = sampleCond := by
    simp [sampleCond, Expr.bottomUp, EPair.bottomUp, toElse, Expr.isNil]
  refine .node _ [(exInts NullabilityRequired, true)] _ false rfl ?_ ?_
  · intro k i j hi hj
    match k, hi, hj with
    | 0, hi, hj =>
      cases hi
      cases hj
      exact .node _ [] _ false rfl (fun k i j h => by simp [exInts, Rel.getInputs] at h)
        (by simp [exInts, Rel.copyRewrite, Expr.bottomUp])
    | k + 1, hi, _ => simp [exFiltered, Rel.getInputs] at hi
  · simp [exFiltered, Rel.copyRewrite, hc]

end Verif
