import Verif.Lemmas.Visit
/-!
# C16, C17: visiting an expression

`visit (fun _ => isLit) f.run e h s` runs `e.Visit(f)` in memory `h`, where the visitor's own state is
`s`; here the visitors leave the memory alone (`Verif.Props.VisitTree` has those that do not).
`Shows h e v` says what the node at `e` is (kind, attributes, children in order);
`v.rewrite f s` is that node with every child replaced by the visitor's result.
-/

namespace Verif

/-- **C17** (except hidden children, see `C17_negation_window`, `C17_negation_fieldRef`; options of a
multi-or-list that change while the values do not, see `C17_multiOr_panics`; and switch labels
replaced by something that is not a literal, see `C17_negation_label`): when the visitor succeeds on
every child, `Visit` succeeds, returns a node of the same kind and attributes whose children are the
visitor's results in order, leaves the original memory as it was, calls the visitor exactly on the
children in order (the final state is the one obtained that way), and returns the very same node,
allocating nothing, when nothing changed. -/
theorem C17_visit_rewrites_partial (isLit : Ptr → Bool) (f : Visitor σ) (h : Heap) (e : Addr)
    (v v' : View) (s s' : σ) (hs : Shows h e v) (hvis : v.NoHidden)
    (hr : v.rewrite f s = .ok (v', s')) (hlab : LabelsOk isLit v v') (hopt : OptionsOk v v') :
    ∃ p h', visit (fun _ => isLit) f.run e h s = .ok (some p, h', s') ∧ Extends h h' ∧ Shows h' p v' ∧
      v'.head = v.head ∧ (v' = v → p = e ∧ h' = h) := by
  obtain ⟨hrw, hhd⟩ := view_rewrite_ok hvis hr
  suffices H : VisitedAs isLit f e h s v v' s' by
    obtain ⟨p, h', h1, h2, h3, h4⟩ := H
    exact ⟨p, h', h1, h2, h3, hhd, h4⟩
  obtain ⟨hd', rows'⟩ := v'
  have hs0 := hs
  cases hs with
  | literal l hn =>
    obtain ⟨rfl, rfl⟩ := rewriteRows_nil hrw
    exact visited_leaf hs0 (by simpa using hhd) rfl (by simp [visit, readNode_ok hn])
  | fieldRefExpr => simp [View.NoHidden] at hvis
  | fieldRef root ref t hroot hn =>
    obtain ⟨rfl, rfl⟩ := rewriteRows_nil hrw
    exact visited_leaf hs0 (by simpa using hhd) rfl (by simp [visit, readNode_ok hn])
  | dynParam ty ref hn =>
    obtain ⟨rfl, rfl⟩ := rewriteRows_nil hrw
    exact visited_leaf hs0 (by simpa using hhd) rfl (by simp [visit, readNode_ok hn])
  | scalarSubquery i hn =>
    obtain ⟨rfl, rfl⟩ := rewriteRows_nil hrw
    exact visited_leaf hs0 (by simpa using hhd) rfl (by simp [visit, readNode_ok hn])
  | setPredicate op r hn =>
    obtain ⟨rfl, rfl⟩ := rewriteRows_nil hrw
    exact visited_leaf hs0 (by simpa using hhd) rfl (by simp [visit, readNode_ok hn])
  | ifThen ifs els l hn hl hk =>
    obtain ⟨y, s1, r1, h1, h2, rfl⟩ := rewriteRows_cons hrw
    obtain ⟨y2, s2, r2, h3, h4, rfl⟩ := rewriteRows_cons h2
    obtain ⟨rfl, rfl⟩ := rewriteRows_nil h4
    obtain ⟨q, h5, rfl⟩ := rewriteRow_single h3
    simp only at hhd
    subst hhd
    exact visited_ifThen hn hl hk h1 h5
  | cast ty input fail hn =>
    obtain ⟨y, s1, r1, h1, h2, rfl⟩ := rewriteRows_cons hrw
    obtain ⟨rfl, rfl⟩ := rewriteRows_nil h2
    obtain ⟨q, h5, rfl⟩ := rewriteRow_single h1
    simp only at hhd
    subst hhd
    exact visited_single (mk := fun q => .cast ty q fail) hs0
      (by simp [visit, readNode_ok hn, visitCast]) h5 (fun h' a ha => .cast _ _ _ _ ha)
  | lambda ps b hn =>
    obtain ⟨y, s1, r1, h1, h2, rfl⟩ := rewriteRows_cons hrw
    obtain ⟨rfl, rfl⟩ := rewriteRows_nil h2
    obtain ⟨q, h5, rfl⟩ := rewriteRow_single h1
    simp only at hhd
    subst hhd
    exact visited_single (mk := fun q => .lambda ps q) hs0
      (by simp [visit, readNode_ok hn, visitLambda]) h5 (fun h' a ha => .lambda _ _ _ ha)
  | setComparison a b l r hn =>
    obtain ⟨y, s1, r1, h1, h2, rfl⟩ := rewriteRows_cons hrw
    obtain ⟨rfl, rfl⟩ := rewriteRows_nil h2
    obtain ⟨q, h5, rfl⟩ := rewriteRow_single h1
    simp only at hhd
    subst hhd
    exact visited_single (mk := fun q => .setComparison a b q r) hs0
      (by simp [visit, readNode_ok hn, visitSetComparison]) h5
      (fun h' x ha => .setComparison _ _ _ _ _ ha)
  | switch m ifs els l hn hl hk =>
    obtain ⟨y, s1, r1, h1, h2, rfl⟩ := rewriteRows_cons hrw
    obtain ⟨y2, s2, r2, h3, h4, rfl⟩ := rewriteRows_cons h2
    obtain ⟨y3, s3, r3, h5, h6, rfl⟩ := rewriteRows_cons h4
    obtain ⟨rfl, rfl⟩ := rewriteRows_nil h6
    obtain ⟨m', h7, rfl⟩ := rewriteRow_single h1
    obtain ⟨q, h8, rfl⟩ := rewriteRow_single h5
    simp only at hhd
    subst hhd
    refine visited_switch hn hl hk h7 h3 h8 ?_
    rcases hlab rfl with hsame | hlit
    · left
      simpa using hsame
    · right
      intro a b hab
      exact hlit y2 (by simp) a b hab
  | singularOr va o l hn hl hk =>
    obtain ⟨y, s1, r1, h1, h2, rfl⟩ := rewriteRows_cons hrw
    obtain ⟨y2, s2, r2, h3, h4, rfl⟩ := rewriteRows_cons h2
    obtain ⟨rfl, rfl⟩ := rewriteRows_nil h4
    obtain ⟨m', h7, rfl⟩ := rewriteRow_single h1
    simp only at hhd
    subst hhd
    exact visited_singularOr hn hl hk h7 h3
  | multiOr va o l os rows hn hv hk ho hrows hkr =>
    obtain ⟨y, s1, r1, h1, h2, rfl⟩ := rewriteRows_cons hrw
    simp only at hhd
    subst hhd
    refine visited_multiOr hn hv hk ho hrows hkr h1 h2 ?_
    rcases hopt rfl with hsame | hne
    · left
      simpa using hsame
    · right
      simpa using hne
  | mapE n va a l hn hl hk =>
    obtain ⟨y, s1, r1, h1, h2, rfl⟩ := rewriteRows_cons hrw
    obtain ⟨rfl, rfl⟩ := rewriteRows_nil h2
    simp only at hhd
    subst hhd
    exact visited_slice (mk := fun a => .mapE n va a) hs0
      (by simp only [visit, vm_bind, readNode_ok hn, visitMap, readArr_ok hl, Res.ok_bind]; rfl)
      (fun i s hi => makeCopy_spec _ l h i s hi) (pairElem_ok f l hk) h1
      (fun h' a p ha hp => .mapE _ _ _ _ _ hp ha (allPair_rewrite hk h1))
  | structE n va a l hn hl hk =>
    obtain ⟨y, s1, r1, h1, h2, rfl⟩ := rewriteRows_cons hrw
    obtain ⟨rfl, rfl⟩ := rewriteRows_nil h2
    simp only at hhd
    subst hhd
    exact visited_slice (mk := fun a => .structE n va a) hs0
      (by simp only [visit, vm_bind, readNode_ok hn, visitStruct, readArr_ok hl, Res.ok_bind]; rfl)
      (fun i s hi => makeCopy_spec _ l h i s hi) (ptrElem_ok f l hk) h1
      (fun h' a p ha hp => .structE _ _ _ _ _ hp ha (allPtr_rewrite hk h1))
  | listE n va a l hn hl hk =>
    obtain ⟨y, s1, r1, h1, h2, rfl⟩ := rewriteRows_cons hrw
    obtain ⟨rfl, rfl⟩ := rewriteRows_nil h2
    simp only at hhd
    subst hhd
    exact visited_slice (mk := fun a => .listE n va a) hs0
      (by simp only [visit, vm_bind, readNode_ok hn, visitList, readArr_ok hl, Res.ok_bind]; rfl)
      (fun i s hi => makeCopy_spec _ l h i s hi) (ptrElem_ok f l hk) h1
      (fun h' a p ha hp => .listE _ _ _ _ _ hp ha (allPtr_rewrite hk h1))
  | scalar at_ a l hn hl hk =>
    obtain ⟨y, s1, r1, h1, h2, rfl⟩ := rewriteRows_cons hrw
    obtain ⟨rfl, rfl⟩ := rewriteRows_nil h2
    simp only at hhd
    subst hhd
    exact visited_slice (mk := fun a => .scalar at_ a) hs0
      (by simp only [visit, vm_bind, readNode_ok hn, visitScalar, readArr_ok hl, Res.ok_bind]; rfl)
      (fun i s hi => makeCopy_spec _ l h i s hi) (argElem_ok f l hk) h1
      (fun h' a p ha hp => .scalar _ _ _ _ hp ha (allArg_rewrite hk h1))
  | inPredicate a r l hn hl hk =>
    obtain ⟨y, s1, r1, h1, h2, rfl⟩ := rewriteRows_cons hrw
    obtain ⟨rfl, rfl⟩ := rewriteRows_nil h2
    simp only at hhd
    subst hhd
    exact visited_slice (mk := fun a => .inPredicate a r) hs0
      (by simp only [visit, vm_bind, readNode_ok hn, visitInPredicate, readArr_ok hl, Res.ok_bind]
          rfl)
      (fun i s hi => makeCopy_spec _ l h i s hi) (ptrElem_ok f l hk) h1
      (fun h' a p ha hp => .inPredicate _ _ _ _ hp ha (allPtr_rewrite hk h1))
  | window at_ w a sa pa l ls lp hn hl hk hsl hks hpl hkp =>
    simp only [View.NoHidden, List.cons.injEq, and_true] at hvis
    obtain ⟨_, rfl, rfl, rfl⟩ := hvis
    obtain ⟨y, s1, r1, h1, h2, rfl⟩ := rewriteRows_cons hrw
    simp [rewriteRows, rewriteRow] at h2
    obtain ⟨rfl, rfl⟩ := h2
    simp only at hhd
    subst hhd
    exact visited_window hn hl hk hsl hks hpl hkp h1

/-- Function attributes used in the examples. -/
def exFn : FnAttrs := ⟨3, "add", [], .prim .i64 2 0⟩
def exWin : WinAttrs := ⟨3, 1, 1, none, none⟩

/-- Memory with a window function over argument 7, partitioned by expression 8. -/
def exWindowHeap : Heap :=
  [.arr [.arg (.expr 7)], .arr [], .arr [.ptr (some 8)], .node (.window exFn exWin 0 1 2)]

theorem exWindow_shows : Shows exWindowHeap 3
    ⟨.window exFn exWin, [[.arg (.expr 7)], [], [.ptr (some 8)]]⟩ :=
  .window _ _ _ 0 1 2 _ _ _ rfl rfl (by simp [AllArg]) rfl (by simp [AllSort]) rfl (by simp [AllPtr])

/-- A visitor that replaces expression `a` by `b`. -/
def replace (a b : Addr) : Visitor Unit := fun p s => .ok (if p = some a then some b else p, s)

/-- **C17** for window functions with sort and partition expressions: the arguments are replaced by
the visitor's results in order; sorts, partitions and all other attributes stay as they were (they
are not visited); the original memory is untouched; nothing changed returns the same node. -/
theorem C17_window_partial (isLit : Ptr → Bool) (f : Visitor σ) (h : Heap) (e : Addr)
    (a : FnAttrs) (w : WinAttrs) (args args' sorts partitions : List Slot) (s s' : σ)
    (hs : Shows h e ⟨.window a w, [args, sorts, partitions]⟩)
    (hr : rewriteRow f args s = .ok (args', s')) :
    ∃ p h', visit (fun _ => isLit) f.run e h s = .ok (some p, h', s') ∧ Extends h h' ∧
      Shows h' p ⟨.window a w, [args', sorts, partitions]⟩ ∧ (args' = args → p = e ∧ h' = h) := by
  cases hs with
  | window _ _ a sa pa _ _ _ hn hl hk hsl hks hpl hkp =>
    obtain ⟨p, h', h1, h2, h3, h4⟩ :=
      visited_window (isLit := isLit) hn hl hk hsl hks hpl hkp hr
    exact ⟨p, h', h1, h2, h3, fun hy => h4 (by rw [hy])⟩

example : Shows exWindowHeap 3 ⟨.window exFn exWin, [[.arg (.expr 7)], [], [.ptr (some 8)]]⟩ ∧
    rewriteRow (replace 7 9) [.arg (.expr 7)] () = .ok ([.arg (.expr 9)], ()) :=
  ⟨exWindow_shows, rfl⟩

/-! ### C16 -/

/-- **C16** (except hidden children, see `C16_negation`): with a visitor that returns each child
unchanged, `Visit` returns the node itself and leaves memory as it was (no copy is made), and the
visitor has been called exactly on the children, in order. -/
theorem C16_visit_identity_partial (isLit : Ptr → Bool) (g : Ptr → σ → σ) (h : Heap) (e : Addr)
    (v : View) (s : σ) (hs : Shows h e v) (hn : v.NoHidden) :
    visit (fun _ => isLit) (Unchanged g).run e h s
      = .ok (some e, h, v.children.foldl (fun s p => g p s) s) := by
  have hr : v.rewrite (Unchanged g) s
      = .ok (v, v.children.foldl (fun s p => g p s) s) := by
    obtain ⟨hd, rows⟩ := v
    simp only [View.rewrite, unchanged_rows, Res.ok_bind, View.children]
    cases hd with
    | fieldRef root ref t => cases root <;> simp [View.NoHidden] at hn ⊢
    | _ => rfl
  obtain ⟨p, h', h1, _, _, _, h5⟩ := C17_visit_rewrites_partial isLit (Unchanged g) h e v v s _ hs
    hn hr (fun _ => .inl rfl) (fun _ => .inl rfl)
  obtain ⟨rfl, rfl⟩ := h5 rfl
  exact h1

/-- C16, the part about the node, for every node, hidden children or not: the same pointer comes
back and no memory is allocated or changed. -/
theorem C16_same_node (isLit : Ptr → Bool) (g : Ptr → σ → σ) (h : Heap) (e : Addr)
    (v : View) (s : σ) (hs : Shows h e v) :
    ∃ s', visit (fun _ => isLit) (Unchanged g).run e h s = .ok (some e, h, s') := by
  by_cases hn : v.NoHidden
  · exact ⟨_, C16_visit_identity_partial isLit g h e v s hs hn⟩
  · cases hs with
    | fieldRefExpr r ref t hx => exact ⟨s, by simp [visit, readNode_ok hx]⟩
    | window at_ w a sa pa l ls lp hx hl hk hsl hks hpl hkp =>
      have hc := cow_full (ok := fun _ => true) (alloc := makeCopy (.arg (.other "nil")) l) h l l s _
        (fun i s hi => makeCopy_spec _ l h i s hi) (argElem_ok (Unchanged g) l hk) (by simp)
        (unchanged_row g l s)
      exact ⟨_, by
        simp only [visit, vm_bind, readNode_ok hx, Res.ok_bind, visitWindow, readArr_ok hl, hc,
          if_true, vm_pure]
        rfl⟩
    | fieldRef root ref t hroot hx =>
      exact ⟨s, by simp [visit, readNode_ok hx]⟩
    | _ => exact absurd trivial hn

/-- The full claim of C16: the visitor is called on every child. -/
def C16_statement : Prop :=
  ∀ (h : Heap) (e : Addr) (v : View), Shows h e v →
    visit (fun _ _ => true) (Visitor.run (Unchanged (fun p s => s ++ [p]))) e h [] = .ok (some e, h, v.children)

/-- C16 fails: the partition expression of a window function is not visited. -/
theorem C16_negation : ¬ C16_statement := by
  intro hall
  have := hall exWindowHeap 3 _ exWindow_shows
  have h2 : visit (fun _ _ => true) (Visitor.run (Unchanged (fun p s => s ++ [p]))) 3 exWindowHeap []
      = .ok (some 3, exWindowHeap, [some 7]) := rfl
  rw [h2] at this
  simp [View.children, Slot.children] at this

/-- A visitor that, like the recursive traversal `func(e) { return e.Visit(...) }`, panics when it
is handed nil. -/
def nonNil : Visitor Unit := fun p s => match p with | some a => .ok (some a, s) | none => .panic

/-- The children of a switch without default do not include a default, but `Visit` calls the visitor
with nil for it, so every recursive traversal panics, whatever the match expression and cases. -/
theorem C16_switch_nil_default (h : Heap) (e ifs : Addr) (m : Addr) (l : List Slot)
    (hn : h[e]? = some (.node (.switch (some m) ifs none))) (hl : Holds h ifs l)
    (hk : ∀ x ∈ l, ∃ a b, x = .pair (some a) (some b)) :
    visit (fun _ _ => true) (Visitor.run nonNil) e h () = .panic := by
  have hrow : ∀ l : List Slot, (∀ x ∈ l, ∃ a b, x = .pair (some a) (some b)) →
      rewriteRow nonNil l () = .ok (l, ()) := by
    intro l
    induction l with
    | nil => intro _; rfl
    | cons x xs ih =>
      intro hk
      obtain ⟨a, b, rfl⟩ := hk x (by simp)
      simp [rewriteRow, Slot.rewrite, nonNil, ih (fun x hx => hk x (by simp [hx]))]
  have hk' : AllPair l := fun x hx => by
    obtain ⟨a, b, rfl⟩ := hk x hx
    exact ⟨_, _, rfl⟩
  have hc := cow_full (ok := litCheck (fun _ _ => true) []) (alloc := makeCopy (.pair none none) l) h l l
    () () (fun i s hi => makeCopy_spec _ l h i s hi) (pairElem_ok nonNil l hk') (by simp) (hrow l hk)
  have hm : callVisit nonNil.run (some m) h () = .ok (some m, h, ()) := rfl
  have he : callVisit nonNil.run none h () = .panic := rfl
  rw [← litCheck_const (fun _ => true)] at hc
  simp [visit, readNode_ok hn, visitSwitch, readArr_ok hl, hm, hc, he]

/-! ### C17: where it fails -/

/-- The full claim of C17, for visitors that succeed. -/
def C17_statement : Prop :=
  ∀ (h : Heap) (e : Addr) (v v' : View) (f : Visitor Unit), Shows h e v →
    v.rewrite f () = .ok (v', ()) →
    ∃ p h', visit (fun _ _ => true) f.run e h () = .ok (some p, h', ()) ∧ Extends h h' ∧
      Shows h' p v'

/-- C17 fails: a partition expression of a window function is not replaced. -/
theorem C17_negation_window : ¬ C17_statement := by
  intro hall
  obtain ⟨p, h', h1, _, h3⟩ := hall exWindowHeap 3 _
    ⟨.window exFn exWin, [[.arg (.expr 7)], [], [.ptr (some 9)]]⟩ (replace 8 9) exWindow_shows rfl
  have h2 : visit (fun _ _ => true) (Visitor.run (replace 8 9)) 3 exWindowHeap () = .ok (some 3, exWindowHeap, ()) :=
    rfl
  rw [h2] at h1
  simp only [Res.ok.injEq, Prod.mk.injEq, Option.some.injEq, and_true] at h1
  obtain ⟨rfl, rfl⟩ := h1
  cases h3 with
  | window _ _ a sa pa _ _ _ hn hl hk hs hks hp hkp =>
    have hn' : exWindowHeap[3]? = some (.node (.window exFn exWin 0 1 2)) := rfl
    rw [hn'] at hn
    simp only [Option.some.injEq, Cell.node.injEq, Node.window.injEq, true_and] at hn
    obtain ⟨rfl, rfl, rfl⟩ := hn
    simp [Holds, exWindowHeap] at hp

/-- C17 fails: the root expression of a field reference is not replaced. -/
theorem C17_negation_fieldRef (ref : ERef) (t : Option Ty) : ¬ C17_statement := by
  intro hall
  obtain ⟨p, h', h1, _, h3⟩ := hall [.node (.fieldRef (.expr 8) ref t)] 0 _
    ⟨.fieldRef (.expr 9) ref t, [[.ptr (some 9)]]⟩ (replace 8 9) (.fieldRefExpr _ _ _ _ rfl) rfl
  have h2 : visit (fun _ _ => true) (Visitor.run (replace 8 9)) 0 [.node (.fieldRef (.expr 8) ref t)] ()
      = .ok (some 0, [.node (.fieldRef (.expr 8) ref t)], ()) := rfl
  rw [h2] at h1
  simp only [Res.ok.injEq, Prod.mk.injEq, Option.some.injEq, and_true] at h1
  obtain ⟨rfl, rfl⟩ := h1
  cases h3 with
  | fieldRefExpr _ _ _ hn => simp at hn

/-- C17 fails, for every multi-or-list: if the visitor leaves the values alone and changes some
option, `Visit` panics. -/
theorem C17_multiOr_panics (isLit : Ptr → Bool) (f : Visitor σ) (h : Heap) (e : Addr)
    (l : List Slot) (rows rows' : List (List Slot)) (s s' : σ)
    (hs : Shows h e ⟨.multiOr, l :: rows⟩)
    (hr : View.rewrite f ⟨.multiOr, l :: rows⟩ s = .ok (⟨.multiOr, l :: rows'⟩, s'))
    (hne : rows' ≠ rows) : visit (fun _ => isLit) f.run e h s = .panic := by
  obtain ⟨hrw, _⟩ := view_rewrite_ok (v := ⟨.multiOr, l :: rows⟩) (by simp [View.NoHidden]) hr
  obtain ⟨y, s1, r1, h1, h2, h3⟩ := rewriteRows_cons hrw
  simp only [List.cons.injEq] at h3
  obtain ⟨rfl, rfl⟩ := h3
  have key : ∀ (rs ys done : List (List Slot)) (s0 : σ), rows = done ++ rs → ys ≠ rs →
      rewriteRows f rs s0 = .ok (ys, s') → (∀ r ∈ rs, AllPtr r) →
      multiOuter f.run l rows rs done.length none h s0 = .panic := by
    intro rs
    induction rs with
    | nil =>
      intro ys done s0 _ hne hr
      exact absurd (rewriteRows_nil hr).1 hne
    | cons r rs ih =>
      intro ys done s0 hd hne hr hk
      obtain ⟨y, s2, ys', h3, h4, rfl⟩ := rewriteRows_cons hr
      by_cases hy : y = r
      · subst hy
        have := ih ys' (done ++ [y]) s2 (by simp [hd]) (by simpa using hne) h4
          (fun r hr => hk r (by simp [hr]))
        simp only [List.length_append, List.length_singleton] at this
        simp only [multiOuter, multiMakeRow, vm_bind, vm_pure, Res.ok_bind,
          multiInner_none y 0 s0 s2 (hk y (by simp)) h3, this]
      · have := multiInner_panics (f := f) (value := l) (rows := rows) (i := done.length)
          (by simp [hd]) r h r y [] s0 s2 rfl (hk r (by simp)) hy h3
        simp only [List.length_nil] at this
        simp only [multiOuter, multiMakeRow, vm_bind, vm_pure, Res.ok_bind, this, Res.panic_bind]
  cases hs with
  | multiOr va o _ os _ hn hv hk ho hrows hkr =>
    have hc := cow_full (ok := fun _ => true) (alloc := makeCopy (.ptr none) l) h l l s s1
      (fun i s hi => makeCopy_spec _ l h i s hi) (ptrElem_ok f l hk) (by simp) h1
    have := key rows rows' [] s1 rfl hne h2 hkr
    simp only [List.length_nil] at this
    simp [visit, readNode_ok hn, visitMultiOr, readArr_ok hv, readArr_ok ho, readRows_ok hrows, hc,
      this]

/-- C17 fails: replacing a case label by something that is not a literal panics. -/
theorem C17_negation_label :
    visit (fun _ p => p != some 9) (Visitor.run (replace 5 9)) 1
      [.arr [.pair (some 5) (some 6)], .node (.switch (some 4) 0 (some 7))] () = .panic := rfl

/-! ### concrete cases meeting the hypotheses -/

/-- A switch with two cases and a default; the second result and the default are replaced. -/
example :
    let h : Heap := [.arr [.pair (some 10) (some 11), .pair (some 12) (some 13)],
      .node (.switch (some 14) 0 (some 15))]
    let f : Visitor Nat := fun p s =>
      .ok (if p = some 13 then some 20 else if p = some 15 then some 21 else p, s + 1)
    let v : View := ⟨.switch, [[.ptr (some 14)],
      [.pair (some 10) (some 11), .pair (some 12) (some 13)], [.ptr (some 15)]]⟩
    let v' : View := ⟨.switch, [[.ptr (some 14)],
      [.pair (some 10) (some 11), .pair (some 12) (some 20)], [.ptr (some 21)]]⟩
    Shows h 1 v ∧ v.NoHidden ∧ v.rewrite f 0 = .ok (v', 6) ∧ LabelsOk (fun _ => true) v v' ∧
      OptionsOk v v' := by
  refine ⟨.switch _ _ 0 _ _ rfl rfl (by simp [AllPair]), trivial, rfl, ?_, ?_⟩
  · exact fun _ => .inr (fun _ _ _ _ _ => rfl)
  · intro hh; simp at hh

/-- A multi-or-list in which a value and an option change. -/
example :
    let h : Heap := [.arr [.ptr (some 10), .ptr (some 11)], .arr [.ptr (some 12), .ptr (some 10)],
      .arr [.row (some 1), .row none], .node (.multiOr 0 2)]
    let v : View := ⟨.multiOr, [[.ptr (some 10), .ptr (some 11)], [.ptr (some 12), .ptr (some 10)],
      []]⟩
    let v' : View := ⟨.multiOr, [[.ptr (some 20), .ptr (some 11)], [.ptr (some 12), .ptr (some 20)],
      []]⟩
    Shows h 3 v ∧ v.rewrite (replace 10 20) () = .ok (v', ()) ∧ OptionsOk v v' := by
  refine ⟨.multiOr _ 0 2 _ [.row (some 1), .row none] _ rfl rfl (by simp [AllPtr]) rfl ?_ ?_, rfl, ?_⟩
  · exact .cons _ _ _ _ rfl (.cons _ _ _ _ rfl .nil)
  · intro r hr
    simp at hr
    rcases hr with rfl | rfl <;> simp [AllPtr]
  · intro _; right; simp

/-- ... and one in which only an option changes: the hypotheses of `C17_multiOr_panics`. -/
example :
    let h : Heap := [.arr [.ptr (some 10)], .arr [.ptr (some 12)], .arr [.row (some 1)],
      .node (.multiOr 0 2)]
    Shows h 3 ⟨.multiOr, [[.ptr (some 10)], [.ptr (some 12)]]⟩ ∧
    View.rewrite (replace 12 20) ⟨.multiOr, [[.ptr (some 10)], [.ptr (some 12)]]⟩ ()
      = .ok (⟨.multiOr, [[.ptr (some 10)], [.ptr (some 20)]]⟩, ()) := by
  refine ⟨.multiOr _ 0 2 _ [.row (some 1)] _ rfl rfl (by simp [AllPtr]) rfl ?_ ?_, rfl⟩
  · exact .cons _ _ _ _ rfl .nil
  · intro r hr
    simp at hr
    subst hr
    simp [AllPtr]

/-- A scalar function with an enum argument: the visitor is called on the two expressions. -/
example : Shows [.arr [.arg (.expr 7), .arg (.other "SECOND"), .arg (.expr 8)],
    .node (.scalar exFn 0)] 1
    ⟨.scalar exFn, [[.arg (.expr 7), .arg (.other "SECOND"), .arg (.expr 8)]]⟩ ∧
    View.children ⟨.scalar exFn, [[.arg (.expr 7), .arg (.other "SECOND"), .arg (.expr 8)]]⟩
      = [some 7, some 8] :=
  ⟨.scalar _ _ 0 _ rfl rfl (by simp [AllArg]), rfl⟩

/-- A switch without default. -/
example : let h : Heap := [.arr [.pair (some 5) (some 6)], .node (.switch (some 4) 0 none)]
    h[1]? = some (.node (.switch (some 4) 0 none)) ∧ Holds h 0 [.pair (some 5) (some 6)] :=
  ⟨rfl, rfl⟩

end Verif
