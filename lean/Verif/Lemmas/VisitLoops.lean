import Verif.Lemmas.VisitTree
/-! Helper lemmas: the loops of the `Visit` methods with visitors that work on the heap. -/

namespace Verif

/-- an expression in a slot -/
def ExprAt (tag : String → EArg) (m : Known) (e : Expr) (x : Slot) : Prop :=
  ∃ p, x = .ptr p ∧ InMem tag m e p
/-- a pair in a slot -/
def PairAt (tag : String → EArg) (m : Known) : EPair → Slot → Prop
  | .mk a b, x => ∃ p q, x = .pair p q ∧ InMem tag m a p ∧ InMem tag m b q
/-- an argument in a slot -/
def ArgAt (tag : String → EArg) (m : Known) : EArg → Slot → Prop
  | .expr e, x => ∃ a, x = .arg (.expr a) ∧ InMem tag m e (some a)
  | y, x => ∃ t, x = .arg (.other t) ∧ tag t = y

theorem listInMem_iff {tag : String → EArg} {m : Known} : ∀ {es : List Expr} {l : List Slot},
    ListInMem tag m es l ↔ List.Forall₂ (ExprAt tag m) es l
  | [], l => by simp [ListInMem]
  | e :: es, l => by
    simp only [ListInMem, List.forall₂_cons_left_iff, ExprAt, listInMem_iff (es := es)]
    constructor
    · rintro ⟨p, xs, rfl, h1, h2⟩; exact ⟨_, xs, ⟨p, rfl, h1⟩, h2, rfl⟩
    · rintro ⟨_, xs, ⟨p, rfl, h1⟩, h2, rfl⟩; exact ⟨p, xs, rfl, h1, h2⟩

theorem pairsInMem_iff {tag : String → EArg} {m : Known} : ∀ {es : List EPair} {l : List Slot},
    PairsInMem tag m es l ↔ List.Forall₂ (PairAt tag m) es l
  | [], l => by simp [PairsInMem]
  | .mk a b :: es, l => by
    simp only [PairsInMem, List.forall₂_cons_left_iff, PairAt, pairsInMem_iff (es := es)]
    constructor
    · rintro ⟨p, q, xs, rfl, h1, h2, h3⟩; exact ⟨_, xs, ⟨p, q, rfl, h1, h2⟩, h3, rfl⟩
    · rintro ⟨_, xs, ⟨p, q, rfl, h1, h2⟩, h3, rfl⟩; exact ⟨p, q, xs, rfl, h1, h2, h3⟩

theorem argsInMem_iff {tag : String → EArg} {m : Known} : ∀ {es : List EArg} {l : List Slot},
    ArgsInMem tag m es l ↔ List.Forall₂ (ArgAt tag m) es l
  | [], l => by simp [ArgsInMem]
  | x :: es, l => by
    cases x <;>
    · simp only [ArgsInMem, List.forall₂_cons_left_iff, ArgAt, argsInMem_iff (es := es)]
      constructor
      · rintro ⟨p, xs, rfl, h1, h2⟩; exact ⟨_, xs, ⟨p, rfl, h1⟩, h2, rfl⟩
      · rintro ⟨_, xs, ⟨p, rfl, h1⟩, h2, rfl⟩; exact ⟨p, xs, rfl, h1, h2⟩

theorem exprAt_mono {tag : String → EArg} {m m' : Known} (hm : m.Le m') (e : Expr) (x : Slot)
    (h : ExprAt tag m e x) : ExprAt tag m' e x := by
  obtain ⟨p, rfl, h⟩ := h; exact ⟨p, rfl, inMem_mono hm e p h⟩
theorem pairAt_mono {tag : String → EArg} {m m' : Known} (hm : m.Le m') (e : EPair) (x : Slot)
    (h : PairAt tag m e x) : PairAt tag m' e x := by
  obtain ⟨a, b⟩ := e
  obtain ⟨p, q, rfl, h, h1⟩ := h; exact ⟨p, q, rfl, inMem_mono hm a p h, inMem_mono hm b q h1⟩
theorem argAt_mono {tag : String → EArg} {m m' : Known} (hm : m.Le m') (e : EArg) (x : Slot)
    (h : ArgAt tag m e x) : ArgAt tag m' e x := by
  cases e with
  | expr e => obtain ⟨p, rfl, h⟩ := h; exact ⟨p, rfl, inMem_mono hm e _ h⟩
  | _ => exact h

/-! ### the visitor on one child, and on one element -/

/-- The visitor replaces this expression by what `F` says. -/
def DoesOn (tag : String → EArg) (f : HVisitor σ) (F : Expr → Expr) (bad : Prop) (e : Expr) : Prop :=
  ∀ (m : Known) (h : Heap) (p : Ptr), m.Of h → InMem tag m e p →
    HRuns (f p) h bad fun q h' => Extends h h' ∧ InMem tag (m.after h h') (F e) q

/-- ... the element of a slice -/
def ElemDoes (At : Known → ι → Slot → Prop) (elem : Slot → VM σ Slot) (G : ι → ι) (bad : Prop)
    (i : ι) : Prop :=
  ∀ (m : Known) (h : Heap) (x : Slot), m.Of h → At m i x →
    HRuns (elem x) h bad fun y h' => Extends h h' ∧ At (m.after h h') (G i) y

theorem ptrElem_does {tag : String → EArg} {f : HVisitor σ} {F : Expr → Expr} {bad : Prop} {e : Expr}
    (hd : DoesOn tag f F bad e) : ElemDoes (ExprAt tag) (ptrElem f) F bad e := by
  rintro m h x ho ⟨p, rfl, hp⟩
  refine runs_bind (hd m h p ho hp) fun q h' ⟨h1, h2⟩ => runs_pure ⟨h1, q, rfl, h2⟩

theorem pairElem_does {tag : String → EArg} {f : HVisitor σ} {F : Expr → Expr} {bad : Prop}
    {a b : Expr} (ha : DoesOn tag f F bad a) (hb : DoesOn tag f F bad b) :
    ElemDoes (PairAt tag) (pairElem f) (EPair.visited F) bad (.mk a b) := by
  rintro m h x ho ⟨p, q, rfl, hp, hq⟩
  refine runs_bind (ha m h p ho hp) fun p' h' ⟨h1, h2⟩ => ?_
  obtain ⟨w, hle⟩ := (Work.start ho).call h1
  refine runs_bind (hb _ h' q w.of (inMem_mono hle b q hq)) fun q' h'' ⟨h3, h4⟩ => runs_pure ?_
  have w2 := (w.call h3)
  have hl : ((m.after h h').after h' h'').Le (m.after h h'') := by
    exact (w2.1.le_after (.refl h''))
  exact ⟨h1.trans h3, p', q', rfl, inMem_mono (w2.2.trans hl) _ _ h2, inMem_mono hl _ _ h4⟩

theorem argElem_does {tag : String → EArg} (ht : tag "nil" = .nil) {f : HVisitor σ} {F : Expr → Expr}
    {bad : Prop} {i : EArg} (hd : ∀ e, i = .expr e → DoesOn tag f F bad e) :
    ElemDoes (ArgAt tag) (argElem f) (EArg.visited F) bad i := by
  intro m h x ho hx
  cases i with
  | expr e =>
    obtain ⟨a, rfl, hp⟩ := hx
    refine runs_bind (hd e rfl m h _ ho hp) fun q h' ⟨h1, h2⟩ => runs_pure ⟨h1, ?_⟩
    cases q with
    | none =>
      rcases inMem_node h2 with ⟨-, h3⟩ | ⟨_, _, h3, -⟩
      · simp only [EArg.visited, h3, Expr.isNil, if_true]
        exact ⟨"nil", rfl, ht⟩
      · cases h3
    | some b =>
      have : (F e).isNil = false := by
        cases hf : F e <;> simp [Expr.isNil]
        rw [hf] at h2; simp [InMem] at h2
      simp only [EArg.visited, this]
      exact ⟨b, rfl, h2⟩
  | _ =>
    obtain ⟨t, rfl, hp⟩ := hx
    exact runs_pure ⟨.refl h, t, rfl, hp⟩

/-! ### the copy-on-write loop -/

/-- The output made so far holds the new elements; it is known to nobody else. -/
def OutHolds (At : Known → ι → Slot → Prop) (h0 : Heap) (m : Known) (h : Heap) (a : Addr) (n : Nat)
    (done : List ι) : Prop :=
  m a = none ∧ h0.length ≤ a ∧ ∃ ys : List Slot, h[a]? = some (.arr ys) ∧ ys.length = n ∧
    List.Forall₂ (At m) done (ys.take done.length)

theorem outHolds_call {At : Known → ι → Slot → Prop}
    (mono : ∀ {m m' : Known}, m.Le m' → ∀ i x, At m i x → At m' i x) {h0 h h' : Heap} {m : Known}
    {a : Addr} {n : Nat} {done : List ι} (ho : OutHolds At h0 m h a n done) (hm : m.Of h)
    (he : Extends h h') : OutHolds At h0 (m.after h h') h' a n done := by
  obtain ⟨h1, h2, ys, h3, h4, h5⟩ := ho
  have hlt : a < h.length := by
    rcases Nat.lt_or_ge a h.length with h | h
    · exact h
    · rw [List.getElem?_eq_none h] at h3; cases h3
  have hle := ((Work.start hm).call he).2
  exact ⟨after_hidden hlt h1, h2, ys, he.get h3, h4, h5.imp fun i x => mono hle i x⟩

theorem forall₂_push {R : α → β → Prop} {as : List α} {bs : List β} {a : α} {b : β}
    (h : List.Forall₂ R as bs) (hab : R a b) : List.Forall₂ R (as ++ [a]) (bs ++ [b]) := by
  induction h with
  | nil => exact .cons hab .nil
  | cons h1 _ ih => exact .cons h1 ih

/-- storing the next element -/
theorem outHolds_write {At : Known → ι → Slot → Prop} {h0 h : Heap} {m : Known}
    {a : Addr} {n : Nat} {done : List ι} {i : ι} {y : Slot} (ho : OutHolds At h0 m h a n done)
    (hn : done.length < n) (hy : At m i y) :
    ∃ ys, h[a]? = some (.arr ys) ∧ done.length < ys.length ∧
      OutHolds At h0 m (h.set a (.arr (ys.set done.length y))) a n (done ++ [i]) := by
  obtain ⟨h1, h2, ys, h3, h4, h5⟩ := ho
  have hlt : a < h.length := by
    rcases Nat.lt_or_ge a h.length with h | h
    · exact h
    · rw [List.getElem?_eq_none h] at h3; cases h3
  refine ⟨ys, h3, by omega, h1, h2, ys.set done.length y, List.getElem?_set_self hlt, by simpa using h4,
    ?_⟩
  have : (ys.set done.length y).take (done ++ [i]).length = ys.take done.length ++ [y] := by
    rw [List.length_append, List.length_singleton, List.take_add_one]
    congr 1
    · rw [List.take_set, List.set_eq_of_length_le (by simp; omega)]
    · rw [List.getElem?_set_self (by omega)]; rfl
  rw [this]
  exact forall₂_push h5 hy

theorem cow_runs {At : Known → ι → Slot → Prop}
    (mono : ∀ {m m' : Known}, m.Le m' → ∀ i x, At m i x → At m' i x)
    {elem : Slot → VM σ Slot} {alloc : Nat → VM σ Addr} {ok : Heap → Slot → Bool} {G : ι → ι}
    {bad : Prop} {OkI : ι → Prop} {m0 : Known} {h0 : Heap} (l : List Slot)
    (hal : ∀ i, i ≤ l.length → ∃ l', l'.length = l.length ∧ l'.take i = l.take i ∧
      ∀ (h : Heap) (s : σ), alloc i h s = .ok (h.length, h ++ [.arr l'], s)) :
    ∀ (is : List ι) (xs pre : List Slot) (m : Known) (h : Heap) (done : List ι) (out : Option Addr),
      l = pre ++ xs → pre.length = done.length → Work m0 h0 m h → List.Forall₂ (At m) is xs →
      (∀ i ∈ is, ElemDoes At elem G bad i) →
      (∀ i ∈ is, ∀ (m : Known) (h : Heap) y, m.Of h → At m (G i) y →
        (ok h y = true → OkI (G i)) ∧ (ok h y = false → bad)) →
      (∀ i ∈ is, ∀ (m : Known) x, At m i x → At m (G i) x → OkI (G i)) →
      (match out with
        | none => List.Forall₂ (At m) done pre
        | some a => OutHolds At h0 m h a l.length done) →
      HRuns (cowLoop elem alloc ok xs pre.length out) h bad fun out' h' =>
        ∃ m', Work m0 h0 m' h' ∧ m.Le m' ∧ (∀ i ∈ is, OkI (G i)) ∧
          match out' with
          | none => out = none ∧ List.Forall₂ (At m') (done ++ is.map G) l
          | some a => OutHolds At h0 m' h' a l.length (done ++ is.map G) := by
  intro is
  induction is with
  | nil =>
    intro xs pre m h done out hl hp w hx _ _ _ ho
    cases hx
    simp only [List.append_nil] at hl
    subst hl
    refine runs_pure ⟨m, w, .refl m, by simp, ?_⟩
    cases out with
    | none => simpa using ho
    | some a => simpa using ho
  | cons i is ih =>
    intro xs pre m h done out hl hp w hx he hok hun ho
    cases hx with
    | @cons _ x _ xs hx hxs =>
    simp only [cowLoop]
    refine runs_bind (he i (by simp) m h x w.of hx) fun y h1 ⟨e1, hy⟩ => ?_
    obtain ⟨w1, hle⟩ := w.call e1
    have hlen : done.length < l.length := by simp [hl, hp]
    -- what remains to be done once element and output are in place
    have rest : ∀ (m2 : Known) (h2 : Heap) (out' : Option Addr), Work m0 h0 m2 h2 → m.Le m2 →
        (out' = none → out = none) → OkI (G i) →
        (match (motive := Option Addr → Prop) out' with
          | none => List.Forall₂ (At m2) (done ++ [G i]) (pre ++ [x])
          | some a => OutHolds At h0 m2 h2 a l.length (done ++ [G i])) →
        HRuns (cowLoop elem alloc ok xs (pre.length + 1) out') h2 bad fun out'' h' =>
          ∃ m', Work m0 h0 m' h' ∧ m.Le m' ∧ (∀ j ∈ i :: is, OkI (G j)) ∧
            match out'' with
            | none => out = none ∧ List.Forall₂ (At m') (done ++ (i :: is).map G) l
            | some a => OutHolds At h0 m' h' a l.length (done ++ (i :: is).map G) := by
      intro m2 h2 out' w2 hle2 hnone hokI ho2
      have := ih xs (pre ++ [x]) m2 h2 (done ++ [G i]) out' (by simp [hl]) (by simp [hp]) w2
        (hxs.imp fun j z => mono hle2 j z) (fun j hj => he j (by simp [hj]))
        (fun j hj => hok j (by simp [hj])) (fun j hj => hun j (by simp [hj])) ho2
      simp only [List.length_append, List.length_singleton] at this
      refine runs_mono this ?_
      rintro out'' h' ⟨m', a1, a2, a3, a4⟩
      refine ⟨m', a1, hle2.trans a2, ?_, ?_⟩
      · intro j hj
        rcases List.mem_cons.1 hj with rfl | hj
        · exact hokI
        · exact a3 j hj
      · cases out'' with
        | none =>
          obtain ⟨b1, b2⟩ := a4
          exact ⟨hnone b1, by simpa using b2⟩
        | some a => simpa using a4
    -- storing the element
    have store : ∀ (m2 : Known) (h2 : Heap) (a : Addr), Work m0 h0 m2 h2 → m.Le m2 → At m2 (G i) y →
        OutHolds At h0 m2 h2 a l.length done →
        HRuns ((checkHeap (fun h => ok h y) >>= fun b =>
          if b = true then writeSlot a pre.length y else vpanic) >>= fun _ =>
          cowLoop elem alloc ok xs (pre.length + 1) (some a)) h2 bad fun out'' h' =>
          ∃ m', Work m0 h0 m' h' ∧ m.Le m' ∧ (∀ j ∈ i :: is, OkI (G j)) ∧
            match out'' with
            | none => out = none ∧ List.Forall₂ (At m') (done ++ (i :: is).map G) l
            | some a => OutHolds At h0 m' h' a l.length (done ++ (i :: is).map G) := by
      intro m2 h2 a w2 hle2 hy2 ho2
      have hc := hok i (by simp) m2 h2 y w2.of hy2
      cases hb : ok h2 y with
      | false =>
        intro s
        simp [hb, hc.2 hb]
      | true =>
        obtain ⟨ys, k1, k2, k3⟩ := outHolds_write ho2 hlen hy2
        have hw : ∀ s : σ, (checkHeap (fun h => ok h y) >>= fun b =>
            if b = true then writeSlot a pre.length y else vpanic) h2 s
            = .ok ((), h2.set a (.arr (ys.set done.length y)), s) := by
          intro s
          simp only [vm_bind, checkHeap_app, Res.ok_bind, hb, if_true, writeSlot, k1, hp]
          rw [if_pos k2]
        refine runs_step hw (rest m2 _ (some a) ?_ hle2 (by simp) (hc.1 hb) k3)
        exact w2.write _ k3.1 k3.2.1
    cases out with
    | some a =>
      simp only at ho
      have ho1 := outHolds_call mono ho w.of e1
      refine runs_step (h' := h1) (a := some a) (fun s => rfl) ?_
      exact store _ h1 a w1 hle hy ho1
    | none =>
      simp only at ho
      by_cases hyx : y = x
      · subst hyx
        refine runs_step (h' := h1) (a := none) (fun s => by simp) ?_
        refine runs_step (h' := h1) (a := ()) (fun s => rfl) ?_
        refine rest _ h1 none w1 hle (by simp) (hun i (by simp) _ y (mono hle i y hx) hy) ?_
        exact forall₂_push (ho.imp fun j z => mono hle j z) hy
      · obtain ⟨l', k1, k2, k3⟩ := hal pre.length (by simp [hl])
        refine runs_step (h' := h1 ++ [.arr l']) (a := some h1.length)
          (fun s => by simp [hyx, k3]) ?_
        refine store _ _ h1.length (w1.alloc _) hle hy ?_
        refine ⟨?_, w1.ext.length_le, l', by simp, k1, ?_⟩
        · cases hc : m.after h h1 h1.length with
          | none => rfl
          | some c => exact absurd (w1.of.lt hc) (Nat.lt_irrefl _)
        · have : pre = l'.take done.length := by rw [← hp, k2, hl]; simp
          rw [← this]
          exact ho.imp fun j z => mono hle j z

/-- the loop from the start, with no output yet -/
theorem cow_start {At : Known → ι → Slot → Prop}
    (mono : ∀ {m m' : Known}, m.Le m' → ∀ i x, At m i x → At m' i x)
    {elem : Slot → VM σ Slot} {alloc : Nat → VM σ Addr} {G : ι → ι}
    {bad : Prop} {m0 m : Known} {h0 h : Heap} {l : List Slot} {is : List ι}
    (hal : ∀ i, i ≤ l.length → ∃ l', l'.length = l.length ∧ l'.take i = l.take i ∧
      ∀ (h : Heap) (s : σ), alloc i h s = .ok (h.length, h ++ [.arr l'], s))
    (w : Work m0 h0 m h) (hx : List.Forall₂ (At m) is l) (he : ∀ i ∈ is, ElemDoes At elem G bad i) :
    HRuns (cowLoop elem alloc (fun _ _ => true) l 0 none) h bad fun out' h' =>
      ∃ m', Work m0 h0 m' h' ∧ m.Le m' ∧
        match out' with
        | none => List.Forall₂ (At m') (is.map G) l
        | some a => m' a = none ∧ h0.length ≤ a ∧ ∃ ys, h'[a]? = some (.arr ys) ∧
            List.Forall₂ (At m') (is.map G) ys := by
  have := cow_runs mono (elem := elem) (alloc := alloc) (ok := fun _ _ => true) (G := G) (bad := bad)
    (OkI := fun _ => True) (m0 := m0) (h0 := h0) l hal is l [] m h [] none rfl rfl w hx he
    (by simp) (by simp) .nil
  refine runs_mono this ?_
  rintro out h' ⟨m', h1, h2, -, h3⟩
  refine ⟨m', h1, h2, ?_⟩
  cases out with
  | none => exact h3.2
  | some a =>
    obtain ⟨k1, k2, ys, k3, k4, k5⟩ := h3
    refine ⟨k1, k2, ys, k3, ?_⟩
    have hl : ([] ++ is.map G).length = ys.length := by
      rw [k4, ← hx.length_eq]; simp
    rw [hl, List.take_length] at k5
    exact k5

theorem makeCopy_alloc (zero : Slot) (l : List Slot) (i : Nat) (hi : i ≤ l.length) :
    ∃ l', l'.length = l.length ∧ l'.take i = l.take i ∧
      ∀ (h : Heap) (s : σ), makeCopy zero l i h s = .ok (h.length, h ++ [.arr l'], s) :=
  ⟨l.take i ++ List.replicate (l.length - i) zero, by simp; omega,
    by simp [List.take_append, List.take_take, Nat.min_eq_left hi], fun _ _ => rfl⟩

theorem clone_alloc (l : List Slot) (i : Nat) (_ : i ≤ l.length) :
    ∃ l', l'.length = l.length ∧ l'.take i = l.take i ∧
      ∀ (h : Heap) (s : σ), allocArr l h s = .ok (h.length, h ++ [.arr l'], s) :=
  ⟨l, rfl, rfl, fun _ _ => rfl⟩

/-! ### the methods -/

/-- what a method has to return -/
abbrev Returns (tag : String → EArg) (m : Known) (h : Heap) (e' : Expr) (q : Ptr) (h' : Heap) : Prop :=
  Extends h h' ∧ InMem tag (m.after h h') e' q

/-- returning the node itself -/
theorem returns_self {tag : String → EArg} {m0 m : Known} {h0 h : Heap} {a : Addr} {n : Node}
    {e' : Expr} (w : Work m0 h0 m h) (hn : m0 a = some (.node n))
    (hb : NodeIs tag (m0.after h0 h) n e') : Returns tag m0 h0 e' (some a) h :=
  ⟨w.ext, inMem_of_nodeIs ((w.le_after (.refl h)) _ _ (w.le _ _ hn)) hb⟩

/-- returning a new node -/
theorem returns_new {tag : String → EArg} {m0 m : Known} {h0 h : Heap} {n : Node} {e' : Expr}
    (w : Work m0 h0 m h) (hb : NodeIs tag (m0.after h0 (h ++ [.node n])) n e') :
    Returns tag m0 h0 e' (some h.length) (h ++ [.node n]) :=
  ⟨(w.alloc [.node n]).ext, inMem_of_nodeIs (after_new w.ext.length_le (by simp)) hb⟩

theorem slice_runs {tag : String → EArg} {At : Known → ι → Slot → Prop}
    (mono : ∀ {m m' : Known}, m.Le m' → ∀ i x, At m i x → At m' i x)
    {elem : Slot → VM σ Slot} {alloc : Nat → VM σ Addr} {G : ι → ι} {bad : Prop} {m : Known} {h : Heap}
    {a b : Addr} {l : List Slot} {is : List ι} {mk : Addr → Node} {e' : Expr} (ho : m.Of h)
    (hal : ∀ i, i ≤ l.length → ∃ l', l'.length = l.length ∧ l'.take i = l.take i ∧
      ∀ (h : Heap) (s : σ), alloc i h s = .ok (h.length, h ++ [.arr l'], s))
    (hn : m a = some (.node (mk b))) (hb : m b = some (.arr l)) (hx : List.Forall₂ (At m) is l)
    (he : ∀ i ∈ is, ElemDoes At elem G bad i)
    (build : ∀ (K : Known) (c : Addr) (l' : List Slot), m.Le K → K c = some (.arr l') →
      List.Forall₂ (At K) (is.map G) l' → NodeIs tag K (mk c) e') :
    HRuns (cowLoop elem alloc (fun _ _ => true) l 0 none >>= fun out =>
      match out with
      | none => pure (some a)
      | some c => allocNode (mk c)) h bad (Returns tag m h e') := by
  refine runs_bind (cow_start mono hal (Work.start ho) hx he) ?_
  rintro out h' ⟨m', w, hle, ho'⟩
  cases out with
  | none =>
    have hK := w.le_after (.refl h')
    exact runs_pure (returns_self w hn (build _ b l (w.le.trans hK) (hK _ _ (w.le _ _ hb))
      (ho'.imp fun i x => mono hK i x)))
  | some c =>
    obtain ⟨k1, k2, ys, k3, k4⟩ := ho'
    have hK := w.le_after (.app h' [.node (mk c)])
    refine runs_node (returns_new w (build _ c ys (w.le.trans hK) (after_new k2 ?_)
      (k4.imp fun i x => mono hK i x)))
    exact (Extends.app h' _).get k3

/-- methods with a single child -/
theorem single_runs {tag : String → EArg} {f : HVisitor σ} {F : Expr → Expr} {bad : Prop} {m : Known}
    {h : Heap} {a : Addr} {p : Ptr} {e e' : Expr} {mk : Ptr → Node} (ho : m.Of h)
    (hn : m a = some (.node (mk p))) (hp : InMem tag m e p) (hd : DoesOn tag f F bad e)
    (build : ∀ (K : Known) (q : Ptr), m.Le K → InMem tag K (F e) q → NodeIs tag K (mk q) e') :
    HRuns (callVisit f p >>= fun q => if q = p then pure (some a) else allocNode (mk q)) h bad
      (Returns tag m h e') := by
  refine runs_bind (hd m h p ho hp) ?_
  rintro q h' ⟨e1, h1⟩
  obtain ⟨w, hle⟩ := (Work.start ho).call e1
  by_cases hq : q = p
  · subst hq
    rw [if_pos rfl]
    have hK := w.le_after (.refl h')
    exact runs_pure (returns_self w hn (build _ q (w.le.trans hK) (inMem_mono hK _ _ h1)))
  · rw [if_neg hq]
    have hK := w.le_after (.app h' [.node (mk q)])
    exact runs_node (returns_new w (build _ q (w.le.trans hK) (inMem_mono hK _ _ h1)))

end Verif
