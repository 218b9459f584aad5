import Verif.Lemmas.VisitMethods
/-! Helper lemmas: `Visit` on any node, and its recursive use. -/

namespace Verif

theorem doesOn_of {tag : String → EArg} {f : HVisitor σ} {F : Expr → Expr} {D : Expr → Prop}
    {bad : Prop} (hd : f.Does tag F D bad) {e : Expr} (he : D e) : DoesOn tag f F bad e := by
  intro m h p ho hp s
  have := hd m h e p s he ho hp
  cases hc : f p h s with
  | ok r => rw [hc] at this; exact this
  | err => rw [hc] at this; exact this
  | panic => rw [hc] at this; exact this

theorem does_of {tag : String → EArg} {f : HVisitor σ} {F : Expr → Expr} {D : Expr → Prop}
    {bad : Prop} (hd : ∀ e, D e → DoesOn tag f F bad e) : f.Does tag F D bad := by
  intro m h e p s he ho hp
  have := hd e he m h p ho hp s
  cases hc : f p h s with
  | ok r => rw [hc] at this; exact this
  | err => rw [hc] at this; exact this
  | panic => rw [hc] at this; exact this

theorem args_do {tag : String → EArg} (ht : tag "nil" = .nil) {f : HVisitor σ} {F : Expr → Expr}
    {bad : Prop} {as : List EArg} (hd : ∀ e, EArg.expr e ∈ as → DoesOn tag f F bad e) :
    ∀ i ∈ as, ElemDoes (ArgAt tag) (argElem f) (EArg.visited F) bad i :=
  fun i hi => argElem_does ht fun e he => hd e (he ▸ hi)

theorem visit_runs {tag : String → EArg} (ht : tag "nil" = .nil) {f : HVisitor σ} {F : Expr → Expr}
    {bad : Prop} {m : Known} {h : Heap} {e : Expr} {a : Addr} (ho : m.Of h)
    (hp : InMem tag m e (some a)) (hd : ∀ c ∈ e.kids, DoesOn tag f F bad c)
    (hb : e.Breaks F → bad) : HRuns (visit litAt f a) h bad (Returns tag m h (e.visited F)) := by
  rcases inMem_node hp with ⟨h1, -⟩ | ⟨a', n, h1, hn, hi⟩
  · cases h1
  cases h1
  refine runs_step (a := n) (h' := h) (fun s => readNode_ok (ho _ _ hn) s) ?_
  have self : NodeIs tag (m.after h h) n e → Returns tag m h e (some a) h :=
    fun hi => returns_self (Work.start ho) hn hi
  have leaf : Returns tag m h e (some a) h := by
    refine ⟨.refl h, inMem_mono ((Work.start ho).le_after (.refl h)) _ _ hp⟩
  cases n <;> simp only [NodeIs] at hi
  case literal => subst hi; exact runs_pure leaf
  case fieldRef => obtain ⟨_, rfl, h1⟩ := hi; exact runs_pure leaf
  case ifThen =>
    obtain ⟨_, _, l, rfl, h1, h2, h3⟩ := hi
    refine ifThen_runs ho hn h1 h2 h3 (fun x y hxy => ⟨hd _ ?_, hd _ ?_⟩) (hd _ (by simp [Expr.kids]))
    all_goals
      simp only [Expr.kids, List.mem_append, List.mem_flatMap]
      exact .inl ⟨_, hxy, by simp⟩
  case cast =>
    obtain ⟨_, rfl, h1⟩ := hi
    exact single_runs (mk := fun q => .cast _ q _) ho hn h1 (hd _ (by simp [Expr.kids]))
      fun K q _ hq => ⟨_, rfl, hq⟩
  case dynParam => subst hi; exact runs_pure leaf
  case switch =>
    obtain ⟨_, _, _, l, rfl, h1, h2, h3, h4⟩ := hi
    refine switch_runs ho hn h1 h2 h3 h4 (hd _ (by simp [Expr.kids]))
      (fun x y hxy => ⟨hd _ ?_, hd _ ?_⟩) (hd _ (by simp [Expr.kids])) hb
    all_goals
      simp only [Expr.kids, List.mem_append, List.mem_flatMap, List.mem_cons]
      exact .inl (.inr ⟨_, hxy, by simp⟩)
  case singularOr =>
    obtain ⟨_, _, l, rfl, h1, h2, h3⟩ := hi
    exact singularOr_runs ho hn h1 h2 h3 (hd _ (by simp [Expr.kids]))
      fun x hx => hd _ (by simp [Expr.kids, hx])
  case multiOr =>
    obtain ⟨_, _, l, ls, rfl, h1, h2, h3, h4⟩ := hi
    refine multiOr_runs ho hn h1 h2 h3 h4 (fun x hx => hd _ (by simp [Expr.kids, hx]))
      (fun es hes x hx => hd _ ?_) hb
    simp only [Expr.kids, List.mem_append, List.mem_flatMap]
    exact .inr ⟨_, hes, hx⟩
  case mapE =>
    obtain ⟨_, l, rfl, h1, h2⟩ := hi
    refine runs_readArr (ho _ _ h1) (slice_runs (mk := fun b => .mapE _ _ b) pairAt_mono ho
      (makeCopy_alloc _ l) hn h1 (pairsInMem_iff.1 h2)
      (pairs_do (F := F) fun x y hxy => ⟨hd _ ?_, hd _ ?_⟩)
      fun K c l' _ hc hl => ⟨_, l', rfl, hc, pairsInMem_iff.2 hl⟩)
    all_goals
      simp only [Expr.kids, List.mem_flatMap]
      exact ⟨_, hxy, by simp⟩
  case structE =>
    obtain ⟨_, l, rfl, h1, h2⟩ := hi
    exact runs_readArr (ho _ _ h1) (slice_runs (mk := fun b => .structE _ _ b) exprAt_mono ho
      (makeCopy_alloc _ l) hn h1 (listInMem_iff.1 h2)
      (fun x hx => ptrElem_does (hd _ (by simp [Expr.kids, hx])))
      fun K c l' _ hc hl => ⟨_, l', rfl, hc, listInMem_iff.2 hl⟩)
  case listE =>
    obtain ⟨_, l, rfl, h1, h2⟩ := hi
    exact runs_readArr (ho _ _ h1) (slice_runs (mk := fun b => .listE _ _ b) exprAt_mono ho
      (makeCopy_alloc _ l) hn h1 (listInMem_iff.1 h2)
      (fun x hx => ptrElem_does (hd _ (by simp [Expr.kids, hx])))
      fun K c l' _ hc hl => ⟨_, l', rfl, hc, listInMem_iff.2 hl⟩)
  case scalar =>
    obtain ⟨_, l, rfl, h1, h2⟩ := hi
    refine runs_readArr (ho _ _ h1) (slice_runs (mk := fun b => .scalar _ b) argAt_mono ho
      (makeCopy_alloc _ l) hn h1 (argsInMem_iff.1 h2) (args_do ht (F := F) fun x hx => hd _ ?_)
      fun K c l' _ hc hl => ⟨_, l', rfl, hc, argsInMem_iff.2 hl⟩)
    simp only [Expr.kids, List.mem_flatMap]
    exact ⟨_, hx, by simp⟩
  case window =>
    obtain ⟨_, _, _, l, ls, lp, rfl, h1, h2, h3, h4, h5, h6⟩ := hi
    refine runs_readArr (ho _ _ h1) (slice_runs (mk := fun b => .window _ _ b _ _) argAt_mono ho
      (makeCopy_alloc _ l) hn h1 (argsInMem_iff.1 h4) (args_do ht (F := F) fun x hx => hd _ ?_)
      fun K c l' hK hc hl => ⟨_, _, _, l', ls, lp, rfl, hc, hK _ _ h2, hK _ _ h3, argsInMem_iff.2 hl,
        sortsInMem_mono hK _ _ h5, listInMem_mono hK _ _ h6⟩)
    simp only [Expr.kids, List.mem_flatMap]
    exact ⟨_, hx, by simp⟩
  case lambda =>
    obtain ⟨_, _, _, _, rfl, rfl, h1⟩ := hi
    exact single_runs (mk := fun q => .lambda _ q) ho hn h1 (hd _ (by simp [Expr.kids]))
      fun K q _ hq => ⟨_, _, _, _, rfl, rfl, hq⟩
  case scalarSubquery => subst hi; exact runs_pure leaf
  case inPredicate =>
    obtain ⟨_, l, rfl, h1, h2⟩ := hi
    exact runs_readArr (ho _ _ h1) (slice_runs (mk := fun b => .inPredicate b _) exprAt_mono ho
      (makeCopy_alloc _ l) hn h1 (listInMem_iff.1 h2)
      (fun x hx => ptrElem_does (hd _ (by simp [Expr.kids, hx])))
      fun K c l' _ hc hl => ⟨_, l', rfl, hc, listInMem_iff.2 hl⟩)
  case setPredicate => subst hi; exact runs_pure leaf
  case setComparison =>
    obtain ⟨_, rfl, h1⟩ := hi
    exact single_runs (mk := fun q => .setComparison _ _ q _) ho hn h1 (hd _ (by simp [Expr.kids]))
      fun K q _ hq => ⟨_, rfl, hq⟩

/-! ### the tree from the leaves up -/

theorem bottomUpList_map (F : Expr → Expr) : ∀ es, Expr.bottomUpList F es = es.map (Expr.bottomUp F)
  | [] => rfl
  | e :: es => by simp only [Expr.bottomUpList, List.map_cons, bottomUpList_map F es]
theorem pairBottomUp_map (F : Expr → Expr) :
    ∀ ps, EPair.bottomUp F ps = ps.map (EPair.visited (Expr.bottomUp F))
  | [] => rfl
  | .mk a b :: ps => by simp only [EPair.bottomUp, List.map_cons, EPair.visited, pairBottomUp_map F ps]
theorem caseBottomUp_map (F : Expr → Expr) :
    ∀ cs, ECase.bottomUp F cs = cs.map (ECase.visited (Expr.bottomUp F))
  | [] => rfl
  | .mk l e :: cs => by
      simp only [ECase.bottomUp, List.map_cons, ECase.visited, caseBottomUp_map F cs, Expr.bottomUp]
theorem rowBottomUp_map (F : Expr → Expr) :
    ∀ rs, ERow.bottomUp F rs = rs.map (ERow.visited (Expr.bottomUp F))
  | [] => rfl
  | .mk es :: rs => by
      simp only [ERow.bottomUp, List.map_cons, ERow.visited, rowBottomUp_map F rs, bottomUpList_map]
theorem argBottomUp_map (F : Expr → Expr) :
    ∀ as, EArg.bottomUp F as = as.map (EArg.visited (Expr.bottomUp F))
  | [] => rfl
  | x :: as => by
      cases x <;> simp only [EArg.bottomUp, List.map_cons, EArg.visited, argBottomUp_map F as]

theorem bottomUp_eq (F : Expr → Expr) (e : Expr) (he : e ≠ .nil) :
    e.bottomUp F = F (e.visited (Expr.bottomUp F)) := by
  cases e <;> simp only [Expr.bottomUp, Expr.visited, bottomUpList_map, pairBottomUp_map,
    caseBottomUp_map, rowBottomUp_map, argBottomUp_map]
  exact absurd rfl he

theorem visited_ne_nil (F : Expr → Expr) (e : Expr) (he : e ≠ .nil) : e.visited F ≠ .nil := by
  cases e <;> simp [Expr.visited] at he ⊢

theorem kids_smaller (e : Expr) : ∀ c ∈ e.kids, sizeOf c < sizeOf e := by
  intro c hc
  cases e with
  | ifThen ifs els =>
    simp only [Expr.kids, List.mem_append, List.mem_flatMap, List.mem_singleton] at hc
    rcases hc with ⟨⟨x, y⟩, h1, h2⟩ | rfl
    · have := List.sizeOf_lt_of_mem h1
      simp only [List.mem_cons, List.not_mem_nil, or_false] at h2
      rcases h2 with rfl | rfl <;> simp at this ⊢ <;> omega
    · simp; omega
  | switch e cs els =>
    simp only [Expr.kids, List.mem_append, List.mem_flatMap, List.mem_singleton, List.mem_cons,
      List.not_mem_nil, or_false] at hc
    rcases hc with (rfl | ⟨⟨x, y⟩, h1, h2⟩) | rfl
    · simp; omega
    · have := List.sizeOf_lt_of_mem h1
      simp only [List.mem_cons, List.not_mem_nil, or_false] at h2
      rcases h2 with rfl | rfl <;> simp at this ⊢ <;> omega
    · simp; omega
  | singularOr e os =>
    simp only [Expr.kids, List.mem_cons] at hc
    rcases hc with rfl | h1
    · simp; omega
    · have := List.sizeOf_lt_of_mem h1; simp; omega
  | multiOr es os =>
    simp only [Expr.kids, List.mem_append, List.mem_flatMap] at hc
    rcases hc with h1 | ⟨⟨rs⟩, h1, h2⟩
    · have := List.sizeOf_lt_of_mem h1; simp; omega
    · have := List.sizeOf_lt_of_mem h1
      have h3 := List.sizeOf_lt_of_mem (show c ∈ rs from h2)
      simp at this ⊢; omega
  | mapE n v kvs =>
    simp only [Expr.kids, List.mem_flatMap] at hc
    obtain ⟨⟨x, y⟩, h1, h2⟩ := hc
    have := List.sizeOf_lt_of_mem h1
    simp only [List.not_mem_nil, or_false, List.mem_cons] at h2
    rcases h2 with rfl | rfl <;> simp at this ⊢ <;> omega
  | scalar f as =>
    simp only [Expr.kids, List.mem_flatMap] at hc
    obtain ⟨x, h1, h2⟩ := hc
    have := List.sizeOf_lt_of_mem h1
    cases x <;> simp at h2
    subst h2
    simp at this ⊢; omega
  | window f w as ss ps =>
    simp only [Expr.kids, List.mem_flatMap] at hc
    obtain ⟨x, h1, h2⟩ := hc
    have := List.sizeOf_lt_of_mem h1
    cases x <;> simp at h2
    subst h2
    simp at this ⊢; omega
  | structE n v es => have := List.sizeOf_lt_of_mem (show c ∈ es from hc); simp; omega
  | listE n v es => have := List.sizeOf_lt_of_mem (show c ∈ es from hc); simp; omega
  | inPredicate es r => have := List.sizeOf_lt_of_mem (show c ∈ es from hc); simp; omega
  | cast t x f => simp [Expr.kids] at hc; subst hc; simp; omega
  | lambda n v ts x => simp [Expr.kids] at hc; subst hc; simp; omega
  | setComparison a b x r => simp [Expr.kids] at hc; subst hc; simp; omega
  | _ => simp [Expr.kids] at hc

theorem rewriteWith_does {tag : String → EArg} (ht : tag "nil" = .nil) {step : HVisitor σ}
    {F : Expr → Expr} {bad : Prop} (hs : step.Does tag F (· ≠ .nil) bad) :
    ∀ (n : Nat) (e : Expr), (n ≤ sizeOf e → bad) →
      (∀ d, Below e d → d.Breaks (Expr.bottomUp F) → bad) →
      DoesOn tag (rewriteWith step n) (Expr.bottomUp F) bad e := by
  intro n
  induction n with
  | zero => intro e hn _ m h p _ _; exact runs_panic (hn (by omega))
  | succ n ih =>
    intro e hn hb m h p ho hp
    cases p with
    | none =>
      rcases inMem_node hp with ⟨-, rfl⟩ | ⟨_, _, h1, -⟩
      · refine runs_pure ⟨.refl h, ?_⟩
        simp [InMem, Expr.bottomUp]
      · cases h1
    | some a =>
      have hne : e ≠ .nil := by rintro rfl; simp [InMem] at hp
      rw [bottomUp_eq F e hne]
      refine runs_bind (visit_runs (F := Expr.bottomUp F) ht ho hp (fun c hc => ih c ?_ ?_)
        (hb e (.refl e))) ?_
      · intro h1
        have := kids_smaller e c hc
        exact hn (by omega)
      · intro d hd
        exact hb d (.kid e c d hc hd)
      · rintro q h1 ⟨e1, h2⟩
        obtain ⟨w, hle⟩ := (Work.start ho).call e1
        refine runs_mono (doesOn_of hs (visited_ne_nil _ e hne) _ h1 q w.of h2) ?_
        rintro q' h2' ⟨e2, h3⟩
        refine ⟨e1.trans e2, inMem_mono ?_ _ _ h3⟩
        exact (w.call e2).1.le_after (.refl h2')

end Verif
