import Verif.Lemmas.VisitLoops
/-! Helper lemmas: each `Visit` method on trees in memory. -/

namespace Verif

/-- an array of the right length made beforehand, known to nobody else -/
def Blank (h0 : Heap) (m : Known) (h : Heap) (n : Nat) : Option Addr → Prop
  | none => True
  | some a => m a = none ∧ h0.length ≤ a ∧ ∃ ys : List Slot, h[a]? = some (.arr ys) ∧ ys.length = n

theorem Known.Of.fresh {m : Known} {h : Heap} (ho : m.Of h) : m h.length = none := by
  cases hc : m h.length with
  | none => rfl
  | some c => exact absurd (ho.lt hc) (Nat.lt_irrefl _)

/-- the loop with an output that may have been made beforehand -/
theorem cow_from {At : Known → ι → Slot → Prop}
    (mono : ∀ {m m' : Known}, m.Le m' → ∀ i x, At m i x → At m' i x)
    {elem : Slot → VM σ Slot} {alloc : Nat → VM σ Addr} {ok : Heap → Slot → Bool} {G : ι → ι}
    {bad : Prop} {OkI : ι → Prop} {m0 m : Known} {h0 h : Heap} {l : List Slot} {is : List ι}
    {out : Option Addr}
    (hal : ∀ i, i ≤ l.length → ∃ l', l'.length = l.length ∧ l'.take i = l.take i ∧
      ∀ (h : Heap) (s : σ), alloc i h s = .ok (h.length, h ++ [.arr l'], s))
    (w : Work m0 h0 m h) (hx : List.Forall₂ (At m) is l) (he : ∀ i ∈ is, ElemDoes At elem G bad i)
    (hok : ∀ i ∈ is, ∀ (m : Known) (h : Heap) y, m.Of h → At m (G i) y →
        (ok h y = true → OkI (G i)) ∧ (ok h y = false → bad))
    (hun : ∀ i ∈ is, ∀ (m : Known) x, At m i x → At m (G i) x → OkI (G i))
    (hout : Blank h0 m h l.length out) :
    HRuns (cowLoop elem alloc ok l 0 out) h bad fun out' h' =>
      ∃ m', Work m0 h0 m' h' ∧ m.Le m' ∧ (∀ i ∈ is, OkI (G i)) ∧
        match out' with
        | none => out = none ∧ List.Forall₂ (At m') (is.map G) l
        | some a => m' a = none ∧ h0.length ≤ a ∧ ∃ ys, h'[a]? = some (.arr ys) ∧
            List.Forall₂ (At m') (is.map G) ys := by
  have := cow_runs mono (elem := elem) (alloc := alloc) (ok := ok) (G := G) (bad := bad)
    (OkI := OkI) (m0 := m0) (h0 := h0) l hal is l [] m h [] out rfl rfl w hx he hok hun (by
      cases out with
      | none => exact .nil
      | some a =>
        obtain ⟨k1, k2, ys, k3, k4⟩ := hout
        exact ⟨k1, k2, ys, k3, k4, by simp⟩)
  refine runs_mono this ?_
  rintro out h' ⟨m', h1, h2, h2', h3⟩
  refine ⟨m', h1, h2, h2', ?_⟩
  cases out with
  | none => exact h3
  | some a =>
    obtain ⟨k1, k2, ys, k3, k4, k5⟩ := h3
    refine ⟨k1, k2, ys, k3, ?_⟩
    have hl : ([] ++ is.map G).length = ys.length := by
      rw [k4, ← hx.length_eq]; simp
    rw [hl, List.take_length] at k5
    exact k5

section
variable {tag : String → EArg} {f : HVisitor σ} {F : Expr → Expr} {bad : Prop} {m : Known} {h : Heap}
  {a : Addr}

theorem pairs_do {ps : List EPair} (hd : ∀ x y, EPair.mk x y ∈ ps → DoesOn tag f F bad x ∧ DoesOn tag f F bad y) :
    ∀ i ∈ ps, ElemDoes (PairAt tag) (pairElem f) (EPair.visited F) bad i := by
  rintro ⟨x, y⟩ hi
  exact pairElem_does (hd x y hi).1 (hd x y hi).2

theorem ifThen_runs {ifs : List EPair} {els : Expr} {b : Addr} {l : List Slot} {q : Ptr}
    (ho : m.Of h) (hn : m a = some (.node (.ifThen b q))) (hb : m b = some (.arr l))
    (hx : PairsInMem tag m ifs l) (hq : InMem tag m els q)
    (hp : ∀ x y, EPair.mk x y ∈ ifs → DoesOn tag f F bad x ∧ DoesOn tag f F bad y)
    (he : DoesOn tag f F bad els) :
    HRuns (visitIfThen f a b q) h bad (Returns tag m h ((Expr.ifThen ifs els).visited F)) := by
  refine runs_readArr (ho _ _ hb) ?_
  refine runs_bind (cow_start pairAt_mono (clone_alloc l) (Work.start ho) (pairsInMem_iff.1 hx)
    (pairs_do hp)) ?_
  rintro out h1 ⟨m1, w, hle, hout⟩
  refine runs_bind (he m1 h1 q w.of (inMem_mono hle _ _ hq)) ?_
  rintro q' h2 ⟨e2, hq'⟩
  obtain ⟨w2, hle2⟩ := w.call e2
  cases out with
  | none =>
    simp only at hout ⊢
    by_cases hqq : q' = q
    · subst hqq
      rw [if_pos rfl]
      have hK := w2.le_after (.refl h2)
      refine runs_pure (returns_self w2 hn ?_)
      exact ⟨_, _, l, rfl, hK _ _ (w2.le _ _ hb), pairsInMem_iff.2
        (hout.imp fun i x => pairAt_mono (hle2.trans hK) i x), inMem_mono hK _ _ hq'⟩
    · rw [if_neg hqq]
      refine runs_alloc (runs_node (returns_new (w2.alloc _) ?_))
      have hK := (w2.alloc [.arr l]).le_after (.app _ [.node (.ifThen h2.length q')])
      exact ⟨_, _, l, rfl, after_new w2.ext.length_le (by simp),
        pairsInMem_iff.2 (hout.imp fun i x => pairAt_mono (hle2.trans hK) i x), inMem_mono hK _ _ hq'⟩
  | some c =>
    obtain ⟨k1, k2, ys, k3, k4⟩ := hout
    refine runs_node (returns_new w2 ?_)
    have hK := w2.le_after (.app _ [.node (.ifThen c q')])
    exact ⟨_, _, ys, rfl, after_new k2 ((e2.trans (.app _ _)).get k3),
      pairsInMem_iff.2 (k4.imp fun i x => pairAt_mono (hle2.trans hK) i x), inMem_mono hK _ _ hq'⟩

theorem singularOr_runs {e : Expr} {os : List Expr} {b : Addr} {l : List Slot} {q : Ptr}
    (ho : m.Of h) (hn : m a = some (.node (.singularOr q b))) (hb : m b = some (.arr l))
    (hq : InMem tag m e q) (hx : ListInMem tag m os l) (he : DoesOn tag f F bad e)
    (hp : ∀ x ∈ os, DoesOn tag f F bad x) :
    HRuns (visitSingularOr f a q b) h bad (Returns tag m h ((Expr.singularOr e os).visited F)) := by
  refine runs_readArr (ho _ _ hb) ?_
  refine runs_bind (he m h q ho hq) ?_
  rintro q' h1 ⟨e1, hq'⟩
  obtain ⟨w, hle⟩ := (Work.start ho).call e1
  have main : ∀ (h2 : Heap) (out : Option Addr), Work m h (m.after h h1) h2 →
      Blank h (m.after h h1) h2 l.length out → (out = none ↔ q' = q) →
      HRuns (cowLoop (ptrElem f) (makeCopy (.ptr none) l) (fun _ _ => true) l 0 out >>= fun out' =>
        match out' with
        | none => pure (some a)
        | some c => allocNode (.singularOr (if out.isSome then q' else q) c)) h2 bad
        (Returns tag m h ((Expr.singularOr e os).visited F)) := by
    intro h2 out w2 hbl hiff
    have hval : (if out.isSome then q' else q) = q' := by
      cases out with
      | none => simp [hiff.1 rfl]
      | some _ => rfl
    rw [hval]
    refine runs_bind (cow_from exprAt_mono (OkI := fun _ => True) (makeCopy_alloc _ l) w2
      ((listInMem_iff.1 hx).imp fun i x => exprAt_mono hle i x)
      (fun i hi => ptrElem_does (hp i hi)) (by simp) (by simp) hbl) ?_
    rintro out' h3 ⟨m3, w3, hle3, -, hout⟩
    cases out' with
    | none =>
      obtain ⟨k1, k2⟩ := hout
      have hqq := hiff.1 k1
      subst hqq
      have hK := w3.le_after (.refl h3)
      refine runs_pure (returns_self w3 hn ?_)
      exact ⟨_, _, l, rfl, hK _ _ (w3.le _ _ hb), inMem_mono (hle3.trans hK) _ _ hq',
        listInMem_iff.2 (k2.imp fun i x => exprAt_mono hK i x)⟩
    | some c =>
      obtain ⟨k1, k2, ys, k3, k4⟩ := hout
      refine runs_node (returns_new w3 ?_)
      have hK := w3.le_after (.app _ [.node (.singularOr q' c)])
      exact ⟨_, _, ys, rfl, after_new k2 ((Extends.app _ _).get k3),
        inMem_mono (hle3.trans hK) _ _ hq', listInMem_iff.2 (k4.imp fun i x => exprAt_mono hK i x)⟩
  by_cases hqq : q' = q
  · refine runs_step (h' := h1) (a := none) (fun s => by simp [hqq]) ?_
    exact main h1 none w trivial (by simp [hqq])
  · refine runs_step (h' := h1 ++ [.arr (List.replicate l.length (.ptr none))]) (a := some h1.length)
      (fun s => by simp [hqq]) ?_
    exact main _ (some h1.length) (w.alloc _) ⟨w.of.fresh, w.ext.length_le, _, List.getElem?_concat_length, by simp⟩
      (by simp [hqq])

/-- a case as a pair of expressions -/
def ECase.pair : ECase → EPair
  | .mk l e => .mk (.lit l) e

theorem casesInMem_iff : ∀ {cs : List ECase} {l : List Slot},
    CasesInMem tag m cs l ↔ List.Forall₂ (PairAt tag m) (cs.map ECase.pair) l
  | [], l => by simp [CasesInMem]
  | .mk a b :: es, l => by
    simp only [CasesInMem, List.map_cons, List.forall₂_cons_left_iff, PairAt, ECase.pair, InMem,
      casesInMem_iff (cs := es)]
    constructor
    · rintro ⟨p, q, xs, rfl, h1, h2, h3⟩; exact ⟨_, xs, ⟨_, q, rfl, ⟨p, rfl, h1⟩, h2⟩, h3, rfl⟩
    · rintro ⟨_, xs, ⟨_, q, rfl, ⟨p, rfl, h1⟩, h2⟩, h3, rfl⟩; exact ⟨p, q, xs, rfl, h1, h2, h3⟩

theorem litAt_iff {e : Expr} {p : Ptr} (ho : m.Of h) (hp : InMem tag m e p) :
    litAt h p = true ↔ ∃ l, e = .lit l := by
  rcases inMem_node hp with ⟨rfl, rfl⟩ | ⟨c, n, rfl, h1, h2⟩
  · simp [litAt]
  · have hc := ho _ _ h1
    constructor
    · intro hl
      cases n with
      | literal l => exact ⟨l, h2⟩
      | _ => simp [litAt, hc] at hl
    · rintro ⟨l, rfl⟩
      simp only [InMem] at hp
      obtain ⟨d, hd, h3⟩ := hp
      cases hd
      simp [litAt, ho _ _ h3]

theorem cases_pairs {cs : List ECase} (hl : ∀ l r, ECase.mk l r ∈ cs → ∃ l', F (.lit l) = .lit l') :
    (cs.map ECase.pair).map (EPair.visited F) = (cs.map (ECase.visited F)).map ECase.pair := by
  simp only [List.map_map, List.map_inj_left]
  rintro ⟨l, r⟩ hm
  obtain ⟨l', h1⟩ := hl l r hm
  simp [ECase.pair, EPair.visited, ECase.visited, h1]

theorem switch_runs {e els : Expr} {cs : List ECase} {b : Addr} {l : List Slot} {q r : Ptr}
    (ho : m.Of h) (hn : m a = some (.node (.switch q b r))) (hb : m b = some (.arr l))
    (hq : InMem tag m e q) (hx : CasesInMem tag m cs l) (hr : InMem tag m els r)
    (he : DoesOn tag f F bad e)
    (hp : ∀ x y, ECase.mk x y ∈ cs → DoesOn tag f F bad (.lit x) ∧ DoesOn tag f F bad y)
    (hels : DoesOn tag f F bad els) (hbad : (Expr.switch e cs els).Breaks F → bad) :
    HRuns (visitSwitch litAt f a q b r) h bad (Returns tag m h ((Expr.switch e cs els).visited F)) := by
  refine runs_readArr (ho _ _ hb) ?_
  refine runs_bind (he m h q ho hq) ?_
  rintro q' h1 ⟨e1, hq'⟩
  obtain ⟨w, hle⟩ := (Work.start ho).call e1
  have main : ∀ (h2 : Heap) (out : Option Addr), Work m h (m.after h h1) h2 →
      Blank h (m.after h h1) h2 l.length out → (out = none ↔ q' = q) →
      HRuns (cowLoop (pairElem f) (makeCopy (.pair none none) l) (litCheck litAt) l 0 out >>= fun out' =>
        callVisit f r >>= fun afterElse =>
        match out' with
        | none =>
            if afterElse = r then pure (some a)
            else allocArr l >>= fun c => allocNode (.switch (if out.isSome then q' else q) c afterElse)
        | some c => allocNode (.switch (if out.isSome then q' else q) c afterElse)) h2 bad
        (Returns tag m h ((Expr.switch e cs els).visited F)) := by
    intro h2 out w2 hbl hiff
    have hval : (if out.isSome then q' else q) = q' := by
      cases out with
      | none => simp [hiff.1 rfl]
      | some _ => rfl
    rw [hval]
    have hmem : ∀ i ∈ cs.map ECase.pair, ∃ x y, ECase.mk x y ∈ cs ∧ i = .mk (.lit x) y := by
      intro i hi
      obtain ⟨⟨x, y⟩, h1, rfl⟩ := List.mem_map.1 hi
      exact ⟨x, y, h1, rfl⟩
    refine runs_bind (cow_from pairAt_mono (OkI := fun p => ∃ l' y, p = .mk (.lit l') y)
      (makeCopy_alloc _ l) w2 ((casesInMem_iff.1 hx).imp fun i x => pairAt_mono hle i x)
      (pairs_do (F := F) (f := f) (tag := tag) (bad := bad) ?_) ?_ ?_ hbl) ?_
    · intro x y hxy
      obtain ⟨x', y', h3, h4⟩ := hmem _ hxy
      simp only [EPair.mk.injEq] at h4
      obtain ⟨rfl, rfl⟩ := h4
      exact hp x' y h3
    · intro i hi m' h' z ho' hz
      obtain ⟨x', y', h3, rfl⟩ := hmem _ hi
      obtain ⟨p, p', rfl, h4, h5⟩ := hz
      have := litAt_iff ho' h4
      simp only [litCheck]
      constructor
      · intro ht
        obtain ⟨l', hl'⟩ := this.1 ht
        exact ⟨l', F y', by simp [EPair.visited, hl']⟩
      · intro ht
        refine hbad ⟨x', y', h3, fun l' hl' => ?_⟩
        rw [this.2 ⟨l', hl'⟩] at ht
        cases ht
    · intro i hi m' z hz hz'
      obtain ⟨x', y', h3, rfl⟩ := hmem _ hi
      obtain ⟨p, p', rfl, h4, h5⟩ := hz
      obtain ⟨p2, p3, h6, h7, h8⟩ := hz'
      cases h6
      exact ⟨x', F y', by rw [EPair.visited, inMem_unique _ _ _ h4 h7]⟩
    rintro out' h3 ⟨m3, w3, hle3, hokl, hout⟩
    have hlab : ∀ l r, ECase.mk l r ∈ cs → ∃ l', F (.lit l) = .lit l' := by
      intro x y hxy
      obtain ⟨l', y', h4⟩ := hokl (.mk (.lit x) y) (List.mem_map.2 ⟨_, hxy, rfl⟩)
      simp only [EPair.visited, EPair.mk.injEq] at h4
      exact ⟨l', h4.1⟩
    rw [cases_pairs hlab] at hout
    refine runs_bind (hels m3 h3 r w3.of (inMem_mono (hle.trans hle3) _ _ hr)) ?_
    rintro r' h4 ⟨e4, hr'⟩
    obtain ⟨w4, hle4⟩ := w3.call e4
    cases out' with
    | none =>
      obtain ⟨k1, k2⟩ := hout
      have hqq := hiff.1 k1
      subst hqq
      simp only
      by_cases hrr : r' = r
      · subst hrr
        rw [if_pos rfl]
        have hK := w4.le_after (.refl h4)
        refine runs_pure (returns_self w4 hn ?_)
        exact ⟨_, _, _, l, rfl, hK _ _ (w4.le _ _ hb), inMem_mono ((hle3.trans hle4).trans hK) _ _ hq',
          casesInMem_iff.2 (k2.imp fun i x => pairAt_mono (hle4.trans hK) i x), inMem_mono hK _ _ hr'⟩
      · rw [if_neg hrr]
        refine runs_alloc (runs_node (returns_new (w4.alloc _) ?_))
        have hK := (w4.alloc [.arr l]).le_after (.app _ [.node (.switch q' h4.length r')])
        exact ⟨_, _, _, l, rfl, after_new w4.ext.length_le (by simp),
          inMem_mono ((hle3.trans hle4).trans hK) _ _ hq',
          casesInMem_iff.2 (k2.imp fun i x => pairAt_mono (hle4.trans hK) i x), inMem_mono hK _ _ hr'⟩
    | some c =>
      obtain ⟨k1, k2, ys, k3, k4⟩ := hout
      refine runs_node (returns_new w4 ?_)
      have hK := w4.le_after (.app _ [.node (.switch q' c r')])
      exact ⟨_, _, _, ys, rfl, after_new k2 ((e4.trans (.app _ _)).get k3),
        inMem_mono ((hle3.trans hle4).trans hK) _ _ hq',
        casesInMem_iff.2 (k4.imp fun i x => pairAt_mono (hle4.trans hK) i x), inMem_mono hK _ _ hr'⟩
  by_cases hqq : q' = q
  · refine runs_step (h' := h1) (a := none) (fun s => by simp [hqq]) ?_
    exact main h1 none w trivial (by simp [hqq])
  · refine runs_step (h' := h1 ++ [.arr (List.replicate l.length (.pair none none))])
      (a := some h1.length) (fun s => by simp [hqq]) ?_
    exact main _ (some h1.length) (w.alloc _) ⟨w.of.fresh, w.ext.length_le, _, List.getElem?_concat_length, by simp⟩
      (by simp [hqq])

end

/-! ### `MultiOrList` -/

/-- a slice of expressions and its contents -/
def RowOf (tag : String → EArg) (m : Known) : ERow → List Slot → Prop
  | .mk es, r => List.Forall₂ (ExprAt tag m) es r

/-- a slice of expressions in a slot -/
def RowAt (tag : String → EArg) (m : Known) : ERow → Slot → Prop
  | .mk es, x => ∃ r, x = .row r ∧
      ((r = none ∧ es = []) ∨ ∃ a ys, r = some a ∧ m a = some (.arr ys) ∧ ListInMem tag m es ys)

theorem rowOf_mono {tag : String → EArg} {m m' : Known} (hm : m.Le m') (e : ERow) (x : List Slot)
    (h : RowOf tag m e x) : RowOf tag m' e x := by
  obtain ⟨es⟩ := e
  exact List.Forall₂.imp (fun i x => exprAt_mono hm i x) h

theorem rowAt_mono {tag : String → EArg} {m m' : Known} (hm : m.Le m') (e : ERow) (x : Slot)
    (h : RowAt tag m e x) : RowAt tag m' e x := by
  obtain ⟨es⟩ := e
  obtain ⟨r, rfl, h | ⟨a, ys, h2, h3, h4⟩⟩ := h
  · exact ⟨r, rfl, .inl h⟩
  · exact ⟨r, rfl, .inr ⟨a, ys, h2, hm _ _ h3, listInMem_mono hm es ys h4⟩⟩

theorem rowsInMem_iff {tag : String → EArg} {m : Known} : ∀ {rs : List ERow} {l : List Slot},
    RowsInMem tag m rs l ↔ List.Forall₂ (RowAt tag m) rs l
  | [], l => by simp [RowsInMem]
  | .mk es :: rs, l => by
    simp only [RowsInMem, List.forall₂_cons_left_iff, RowAt, rowsInMem_iff (rs := rs)]
    constructor
    · rintro ⟨r, xs, rfl, h1, h2⟩; exact ⟨_, xs, ⟨r, rfl, h1⟩, h2, rfl⟩
    · rintro ⟨_, xs, ⟨r, rfl, h1⟩, h2, rfl⟩; exact ⟨r, xs, rfl, h1, h2⟩

theorem readRows_of {tag : String → EArg} {m : Known} {h : Heap} (ho : m.Of h) {rs : List ERow}
    {l : List Slot} (hr : List.Forall₂ (RowAt tag m) rs l) :
    ∃ rows, (∀ s : σ, readRows l h s = .ok (rows, h, s)) ∧ List.Forall₂ (RowOf tag m) rs rows := by
  induction hr with
  | nil => exact ⟨[], fun _ => rfl, .nil⟩
  | @cons a b _ _ h1 _ ih =>
    obtain ⟨rows, h2, h3⟩ := ih
    obtain ⟨es⟩ := a
    obtain ⟨r, rfl, ⟨rfl, rfl⟩ | ⟨a, ys, rfl, h5, h6⟩⟩ := h1
    · exact ⟨[] :: rows, fun s => by simp [readRows, rowContents, h2], .cons .nil h3⟩
    · exact ⟨ys :: rows, fun s => by simp [readRows, rowContents, readArr_ok (ho _ _ h5), h2],
        .cons (listInMem_iff.1 h6) h3⟩

theorem rows_back {tag : String → EArg} {m : Known} {rs rs' : List ERow}
    {l : List Slot} {rows : List (List Slot)} (hr : List.Forall₂ (RowAt tag m) rs l)
    (h1 : List.Forall₂ (RowOf tag m) rs rows) (h2 : List.Forall₂ (RowOf tag m) rs' rows) : rs' = rs := by
  clear hr
  induction h1 generalizing rs' with
  | nil => cases h2; rfl
  | @cons a b _ _ h3 _ ih =>
    cases h2 with
    | @cons a' _ _ _ h4 h5 =>
      obtain ⟨es⟩ := a
      obtain ⟨es'⟩ := a'
      rw [ih h5, listInMem_unique _ _ _ (listInMem_iff.2 h3) (listInMem_iff.2 h4)]

theorem panics_before {A : VM σ α} {B : α → VM σ Unit} {k : α → VM σ β} {h : Heap} {s : σ}
    (hp : (A >>= fun out => B out >>= fun _ => (pure out : VM σ α)) h s = .panic) :
    (A >>= fun out => B out >>= fun _ => k out) h s = .panic := by
  simp only [vm_bind] at hp ⊢
  cases hA : A h s with
  | ok r =>
    simp only [hA, Res.ok_bind] at hp ⊢
    cases hB : B r.1 r.2.1 r.2.2 with
    | ok r' => simp [hB] at hp
    | err => simp [hB] at hp
    | panic => rfl
  | err => simp [hA] at hp
  | panic => rfl

theorem runs_never {x : VM σ β} {h : Heap} {bad : Prop} {P : β → Heap → Prop}
    (hx : ∀ s, x h s = .panic) (hb : bad) : HRuns x h bad P := by
  intro s
  rw [hx s]
  exact hb

/-- a first change among the options panics -/
theorem multiInner_change {value : List Slot} {rows : List (List Slot)} {i j : Nat}
    (hi : i < rows.length) {p q : Ptr} {h : Heap} {s : σ} {k : Option (Addr × Addr) → VM σ β}
    (hne : Slot.ptr q ≠ .ptr p) :
    ((if Slot.ptr q ≠ .ptr p then
        allocArr value >>= fun v =>
        allocArr (List.replicate rows.length (.row none)) >>= fun opts =>
        cloneRows opts (rows.take i) 0 >>= fun _ =>
        copyCells opts i ((rows[i]?.getD []).take j) 0 >>= fun _ =>
        pure (some (v, opts))
      else pure none) >>= fun out =>
    (match out with
      | some (_, opts) => writeRow opts i j (.ptr q)
      | none => pure ()) >>= fun _ => k out) h s = .panic := by
  have := multiInner_panics (f := (fun _ s => .ok (q, s) : Visitor σ)) (value := value) (rows := rows)
    (i := i) hi (List.replicate j (.ptr none) ++ [.ptr p]) h [.ptr p] [.ptr q]
    (List.replicate j (.ptr none)) s s rfl (by simp [AllPtr]) (by simpa using hne) rfl
  have e1 : ptrElem (Visitor.run fun _ s => .ok (q, s)) (.ptr p) h s = .ok (.ptr q, h, s) := rfl
  rw [multiInner, vm_bind, e1, Res.ok_bind, List.length_replicate] at this
  exact panics_before this

section
variable {tag : String → EArg} {f : HVisitor σ} {F : Expr → Expr} {bad : Prop}

theorem multiInner_nothing {value : List Slot} {rows : List (List Slot)} {i : Nat}
    (hi : i < rows.length) {m0 : Known} {h0 : Heap} :
    ∀ (es : List Expr) (xs : List Slot) (j : Nat) (m : Known) (h : Heap), Work m0 h0 m h →
      List.Forall₂ (ExprAt tag m) es xs → (∀ e ∈ es, DoesOn tag f F bad e) → (es ≠ [] → bad) →
      HRuns (multiInner f value rows i xs j none) h bad fun out h' => out = none ∧
        ∃ m', Work m0 h0 m' h' ∧ m.Le m' ∧ List.Forall₂ (ExprAt tag m') (es.map F) xs := by
  intro es
  induction es with
  | nil =>
    intro xs j m h w hx _ _
    cases hx
    exact runs_pure ⟨rfl, m, w, .refl m, .nil⟩
  | cons e es ih =>
    intro xs j m h w hx hd hb
    cases hx with
    | @cons _ x _ xs hx hxs =>
    simp only [multiInner]
    refine runs_bind (ptrElem_does (hd e (by simp)) m h x w.of hx) ?_
    rintro y h1 ⟨e1, hy⟩
    obtain ⟨w1, hle⟩ := w.call e1
    by_cases hyx : y = x
    · subst hyx
      refine runs_step (h' := h1) (a := none) (fun s => by simp) ?_
      refine runs_step (h' := h1) (a := ()) (fun s => rfl) ?_
      refine runs_mono (ih xs (j + 1) _ h1 w1 (hxs.imp fun i x => exprAt_mono hle i x)
        (fun e he => hd e (by simp [he])) (fun _ => hb (by simp))) ?_
      rintro out h2 ⟨rfl, m2, w2, hle2, h3⟩
      exact ⟨rfl, m2, w2, hle.trans hle2, .cons (exprAt_mono hle2 _ _ hy) h3⟩
    · obtain ⟨p, rfl, -⟩ := hx
      obtain ⟨q, rfl, -⟩ := hy
      exact runs_never (fun s => multiInner_change hi hyx) (hb (by simp))

theorem multiOuter_nothing {value : List Slot} {rows : List (List Slot)} {m0 : Known} {h0 : Heap} :
    ∀ (ers : List ERow) (rs : List (List Slot)) (i : Nat) (m : Known) (h : Heap), Work m0 h0 m h →
      i + rs.length = rows.length → List.Forall₂ (RowOf tag m) ers rs →
      (∀ es, .mk es ∈ ers → ∀ e ∈ es, DoesOn tag f F bad e) → ((∃ r ∈ ers, r ≠ .mk []) → bad) →
      HRuns (multiOuter f value rows rs i none) h bad fun out h' => out = none ∧
        ∃ m', Work m0 h0 m' h' ∧ m.Le m' ∧ List.Forall₂ (RowOf tag m') (ers.map (ERow.visited F)) rs := by
  intro ers
  induction ers with
  | nil =>
    intro rs i m h w _ hx _ _
    cases hx
    exact runs_pure ⟨rfl, m, w, .refl m, .nil⟩
  | cons er ers ih =>
    intro rs i m h w hl hx hd hb
    cases hx with
    | @cons _ r _ rs hx hxs =>
    obtain ⟨es⟩ := er
    simp only [List.length_cons] at hl
    refine runs_step (h' := h) (a := ()) (fun s => rfl) ?_
    refine runs_bind (multiInner_nothing (by omega) es r 0 m h w hx (hd es (by simp))
      fun hne => hb ⟨.mk es, by simp, by simpa using hne⟩) ?_
    rintro out h1 ⟨rfl, m1, w1, hle, h3⟩
    refine runs_mono (ih rs (i + 1) m1 h1 w1 (by omega) (hxs.imp fun i x => rowOf_mono hle i x)
      (fun es he => hd es (by simp [he])) fun ⟨r, h4, h5⟩ => hb ⟨r, by simp [h4], h5⟩) ?_
    rintro out h2 ⟨rfl, m2, w2, hle2, h4⟩
    exact ⟨rfl, m2, w2, hle.trans hle2, .cons (rowOf_mono hle2 (.mk _) _ h3) h4⟩

theorem writeRow_does {h : Heap} {o ra : Addr} {slots ys : List Slot} {i j : Nat} {x : Slot}
    (ho : h[o]? = some (.arr slots)) (hs : slots[i]? = some (.row (some ra)))
    (hr : h[ra]? = some (.arr ys)) (hj : j < ys.length) (s : σ) :
    writeRow o i j x h s = .ok ((), h.set ra (.arr (ys.set j x)), s) := by
  simp only [writeRow, readRow, vm_bind, readArr_ok ho, Res.ok_bind, hs, vm_pure]
  unfold writeSlot
  rw [hr]
  simp only
  rw [if_pos hj]

theorem multiInner_fills {value : List Slot} {rows : List (List Slot)} {i n : Nat} {v o ra : Addr}
    {m0 : Known} {h0 : Heap} {slots : List Slot} (hs : slots[i]? = some (.row (some ra)))
    (hne : ra ≠ o) :
    ∀ (es : List Expr) (xs : List Slot) (done : List Expr) (m : Known) (h : Heap), Work m0 h0 m h →
      List.Forall₂ (ExprAt tag m) es xs → (∀ e ∈ es, DoesOn tag f F bad e) →
      done.length + es.length = n → m o = none → h[o]? = some (.arr slots) →
      OutHolds (ExprAt tag) h0 m h ra n done →
      HRuns (multiInner f value rows i xs done.length (some (v, o))) h bad fun out h' =>
        out = some (v, o) ∧ ∃ m', Work m0 h0 m' h' ∧ m.Le m' ∧ m' o = none ∧
          h'[o]? = some (.arr slots) ∧ OutHolds (ExprAt tag) h0 m' h' ra n (done ++ es.map F) := by
  intro es
  induction es with
  | nil =>
    intro xs done m h w hx _ _ h1 h2 h3
    cases hx
    exact runs_pure ⟨rfl, m, w, .refl m, h1, h2, by simpa using h3⟩
  | cons e es ih =>
    intro xs done m h w hx hd hn h1 h2 h3
    cases hx with
    | @cons _ x _ xs hx hxs =>
    simp only [multiInner]
    refine runs_bind (ptrElem_does (hd e (by simp)) m h x w.of hx) ?_
    rintro y h' ⟨e1, hy⟩
    obtain ⟨w1, hle⟩ := w.call e1
    simp only [List.length_cons] at hn
    refine runs_step (h' := h') (a := some (v, o)) (fun s => rfl) ?_
    have ho' := outHolds_call exprAt_mono h3 w.of e1
    obtain ⟨ys, k1, k2, k3⟩ := outHolds_write ho' (by omega) hy
    have holt : o < h.length := by
      rcases Nat.lt_or_ge o h.length with h | h
      · exact h
      · rw [List.getElem?_eq_none h] at h2; cases h2
    refine runs_step (writeRow_does (e1.get h2) hs k1 k2) ?_
    have := ih xs (done ++ [F e]) (m.after h h') _ (w1.write _ k3.1 k3.2.1)
      (hxs.imp fun i x => exprAt_mono hle i x) (fun e he => hd e (by simp [he]))
      (by simp; omega) (after_hidden holt h1)
      (by rw [List.getElem?_set_ne hne]; exact e1.get h2) k3
    simp only [List.length_append, List.length_singleton] at this
    refine runs_mono this ?_
    rintro out h'' ⟨a0, m2, a1, a2, a3, a4, a5⟩
    exact ⟨a0, m2, a1, hle.trans a2, a3, a4, by simpa using a5⟩

theorem multiOuter_fills {value : List Slot} {rows : List (List Slot)} {v o : Addr} {m0 : Known}
    {h0 : Heap} (hoge : h0.length ≤ o) :
    ∀ (ers : List ERow) (rs : List (List Slot)) (dn : List ERow) (ds : List Slot) (m : Known) (h : Heap),
      Work m0 h0 m h → List.Forall₂ (RowOf tag m) ers rs →
      (∀ es, .mk es ∈ ers → ∀ e ∈ es, DoesOn tag f F bad e) → m o = none →
      h[o]? = some (.arr (ds ++ List.replicate rs.length (.row none))) →
      List.Forall₂ (RowAt tag m) dn ds →
      HRuns (multiOuter f value rows rs ds.length (some (v, o))) h bad fun out h' =>
        out = some (v, o) ∧ ∃ m' ls, Work m0 h0 m' h' ∧ m.Le m' ∧ m' o = none ∧
          h'[o]? = some (.arr ls) ∧ List.Forall₂ (RowAt tag m') (dn ++ ers.map (ERow.visited F)) ls := by
  intro ers
  induction ers with
  | nil =>
    intro rs dn ds m h w hx _ h1 h2 h3
    cases hx
    exact runs_pure ⟨rfl, m, ds, w, .refl m, h1, by simpa using h2, by simpa using h3⟩
  | cons er ers ih =>
    intro rs dn ds m h w hx hd h1 h2 h3
    cases hx with
    | @cons _ r _ rs hx hxs =>
    obtain ⟨es⟩ := er
    have holt : o < h.length := by
      rcases Nat.lt_or_ge o h.length with h | h
      · exact h
      · rw [List.getElem?_eq_none h] at h2; cases h2
    let slots := ds ++ .row (some h.length) :: List.replicate rs.length (.row none)
    let h1' : Heap := (h ++ [Cell.arr (List.replicate r.length (.ptr none))]).set o (.arr slots)
    have hmk : ∀ s : σ, multiMakeRow r.length ds.length (some (v, o)) h s = .ok ((), h1', s) := by
      intro s
      have ho2 := (Extends.app h [Cell.arr (List.replicate r.length (.ptr none))]).get h2
      simp only [multiMakeRow, readRow, vm_bind, readArr_ok h2, Res.ok_bind, vm_pure, rowContents,
        List.length_cons, List.replicate_succ, List.length_nil, if_true, allocArr_app]
      simp only [List.getElem?_append_right (Nat.le_refl _), Nat.sub_self, List.getElem?_cons_zero,
        vm_pure, Res.ok_bind, List.length_nil, if_true, vm_bind, allocArr_app]
      unfold writeSlot
      rw [ho2]
      simp [List.replicate_succ, h1', slots]
    have w1 : Work m0 h0 m h1' := (w.alloc _).write _ h1 hoge
    refine runs_step hmk ?_
    have hne : h.length ≠ o := Nat.ne_of_gt holt
    have := multiInner_fills (f := f) (F := F) (bad := bad) (value := value) (rows := rows) (v := v)
      (n := r.length) (slots := slots) (i := ds.length) (ra := h.length) (o := o) (by simp [slots])
      hne es r [] m h1' w1 hx (hd es (by simp)) (by have := hx.length_eq; simpa using this) h1
      (by simp only [h1']; rw [List.getElem?_set_self
        (Nat.lt_of_lt_of_le holt (Extends.app h _).length_le)])
      ⟨w.of.fresh, w.ext.length_le, List.replicate r.length (.ptr none), by
        simp only [h1']; rw [List.getElem?_set_ne (Ne.symm hne)]; simp, by simp, by simp⟩
    simp only [List.length_nil, List.nil_append] at this
    refine runs_bind this ?_
    rintro out h2' ⟨rfl, m2, w2, hle, k1, k2, k3, k4, ys, k5, k6, k7⟩
    have hlen : (es.map F).length = ys.length := by rw [k6, ← hx.length_eq]; simp
    rw [hlen, List.take_length] at k7
    obtain ⟨w3, hle3⟩ := w2.reveal k3 k4 k5
    have hle' := hle.trans hle3
    have ho3 : h2'[o]? = some (.arr ((ds ++ [.row (some h.length)]) ++
        List.replicate rs.length (.row none))) := by
      rw [k2]; simp [slots]
    have := ih rs (dn ++ [.mk (es.map F)]) (ds ++ [.row (some h.length)]) _ h2' w3
      (hxs.imp fun i x => rowOf_mono hle' i x) (fun es he => hd es (by simp [he]))
      (by rw [if_neg (Ne.symm hne)]; exact k1) ho3
      (forall₂_push (h3.imp fun i x => rowAt_mono hle' i x)
        (show RowAt tag _ (.mk (es.map F)) _ from
          ⟨_, rfl, .inr ⟨_, ys, rfl, by simp, listInMem_iff.2 (k7.imp fun i x => exprAt_mono hle3 i x)⟩⟩))
    simp only [List.length_append, List.length_singleton] at this
    refine runs_mono this ?_
    rintro out h4 ⟨a0, m4, ls, a1, a2, a3, a4, a5⟩
    refine ⟨a0, m4, ls, a1, hle'.trans a2, a3, a4, ?_⟩
    simpa [ERow.visited] using a5

theorem multiOr_runs {m : Known} {h : Heap} {a b c : Addr} {es : List Expr} {ers : List ERow}
    {l ls : List Slot} (ho : m.Of h) (hn : m a = some (.node (.multiOr b c)))
    (hb : m b = some (.arr l)) (hc : m c = some (.arr ls)) (hx : ListInMem tag m es l)
    (hr : RowsInMem tag m ers ls) (hd : ∀ e ∈ es, DoesOn tag f F bad e)
    (hdr : ∀ es, .mk es ∈ ers → ∀ e ∈ es, DoesOn tag f F bad e)
    (hbad : (Expr.multiOr es ers).Breaks F → bad) :
    HRuns (visitMultiOr f a b c) h bad (Returns tag m h ((Expr.multiOr es ers).visited F)) := by
  have hr' := rowsInMem_iff.1 hr
  obtain ⟨rows, hrows, hro⟩ := readRows_of (σ := σ) ho hr'
  refine runs_readArr (ho _ _ hb) (runs_readArr (ho _ _ hc) (runs_step hrows ?_))
  refine runs_bind (cow_start exprAt_mono (makeCopy_alloc _ l) (Work.start ho) (listInMem_iff.1 hx)
    fun i hi => ptrElem_does (hd i hi)) ?_
  rintro out h1 ⟨m1, w, hle, hout⟩
  cases out with
  | none =>
    have hsame : es.map F = es := listInMem_unique _ _ _
      (listInMem_iff.2 ((listInMem_iff.1 hx).imp fun i x => exprAt_mono hle i x)) (listInMem_iff.2 hout)
    refine runs_step (h' := h1) (a := none) (fun s => rfl) ?_
    refine runs_bind (multiOuter_nothing (F := F) (bad := bad) ers rows 0 m1 h1 w (by simp)
      (hro.imp fun i x => rowOf_mono hle i x) hdr fun hex => hbad ⟨?_, hex⟩) ?_
    · intro e he
      have : es.map F = es.map id := by simpa using hsame
      simpa using List.map_inj_left.1 this e he
    rintro out h2 ⟨rfl, m2, w2, hle2, h3⟩
    have hback := rows_back (hr'.imp fun i x => rowAt_mono (hle.trans hle2) i x)
      (hro.imp fun i x => rowOf_mono (hle.trans hle2) i x) h3
    have hK := w2.le_after (.refl h2)
    refine runs_pure (returns_self w2 hn ?_)
    refine ⟨_, _, l, ls, rfl, hK _ _ (w2.le _ _ hb), hK _ _ (w2.le _ _ hc),
      listInMem_iff.2 (hout.imp fun i x => exprAt_mono (hle2.trans hK) i x), ?_⟩
    rw [hback]
    exact rowsInMem_mono (w2.le.trans hK) _ _ hr
  | some v =>
    obtain ⟨k1, k2, ys, k3, k4⟩ := hout
    refine runs_step (h' := h1 ++ [.arr (List.replicate rows.length (.row none))])
      (a := some (v, h1.length)) (fun s => rfl) ?_
    obtain ⟨w1, hle1⟩ := (w.alloc [.arr (List.replicate rows.length (.row none))]).reveal k1 k2
      ((Extends.app _ _).get k3)
    have hvlt : v < h1.length := by
      rcases Nat.lt_or_ge v h1.length with h | h
      · exact h
      · rw [List.getElem?_eq_none h] at k3; cases k3
    refine runs_bind (multiOuter_fills (F := F) (bad := bad) (v := v) (o := h1.length) w.ext.length_le
      ers rows [] [] _ _ w1 (hro.imp fun i x => rowOf_mono (hle.trans hle1) i x) hdr
      (by rw [if_neg (Nat.ne_of_gt hvlt)]; exact w.of.fresh) (by simp) .nil) ?_
    rintro out h2 ⟨rfl, m2, ls', w2, hle2, k5, k6, k7⟩
    refine runs_node (returns_new w2 ?_)
    have hK := w2.le_after (.app _ [.node (.multiOr v h1.length)])
    exact ⟨_, _, ys, ls', rfl, hK _ _ (hle2 _ _ (by simp)),
      after_new w.ext.length_le ((Extends.app _ _).get k6),
      listInMem_iff.2 (k4.imp fun i x => exprAt_mono ((hle1.trans hle2).trans hK) i x),
      rowsInMem_iff.2 (k7.imp fun i x => rowAt_mono hK i x)⟩

end

end Verif
