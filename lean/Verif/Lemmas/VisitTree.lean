import Mathlib.Data.List.Forall2
import Verif.Spec.VisitTree
import Verif.Lemmas.Visit
/-! Helper lemmas: what `Visit` does to whole trees in memory. -/

namespace Verif

/-! ### programs on the heap -/

/-- Whatever the state: if the program returns, the result and the new heap are as described; if not,
`bad` holds. -/
def HRuns (x : VM σ β) (h : Heap) (bad : Prop) (P : β → Heap → Prop) : Prop :=
  ∀ s, match x h s with
    | .ok r => P r.1 r.2.1
    | _ => bad

theorem runs_pure {bad : Prop} {P : β → Heap → Prop} {h : Heap} {b : β} (hp : P b h) :
    HRuns (pure b : VM σ β) h bad P := fun _ => hp

theorem runs_panic {bad : Prop} {P : β → Heap → Prop} {h : Heap} (hb : bad) :
    HRuns (vpanic : VM σ β) h bad P := fun _ => hb

theorem runs_bind {x : VM σ α} {k : α → VM σ β} {h : Heap} {bad : Prop} {P : α → Heap → Prop}
    {Q : β → Heap → Prop} (hx : HRuns x h bad P) (hk : ∀ a h', P a h' → HRuns (k a) h' bad Q) :
    HRuns (x >>= k) h bad Q := by
  intro s
  have h1 := hx s
  rw [vm_bind]
  cases hc : x h s with
  | ok r => rw [hc] at h1; exact hk _ _ h1 _
  | err => rw [hc] at h1; exact h1
  | panic => rw [hc] at h1; exact h1

theorem runs_mono {x : VM σ α} {h : Heap} {bad : Prop} {P Q : α → Heap → Prop} (hx : HRuns x h bad P)
    (hpq : ∀ a h', P a h' → Q a h') : HRuns x h bad Q := by
  intro s
  have h1 := hx s
  cases hc : x h s with
  | ok r => rw [hc] at h1; exact hpq _ _ h1
  | err => rw [hc] at h1; exact h1
  | panic => rw [hc] at h1; exact h1

/-- A program that does one thing in every state. -/
theorem runs_exact {x : VM σ α} {h h' : Heap} {bad : Prop} {a : α} {P : α → Heap → Prop}
    (hx : ∀ s, x h s = .ok (a, h', s)) (hp : P a h') : HRuns x h bad P := by
  intro s
  rw [hx s]
  exact hp

theorem runs_step {x : VM σ α} {k : α → VM σ β} {h h' : Heap} {bad : Prop} {a : α}
    {Q : β → Heap → Prop} (hx : ∀ s, x h s = .ok (a, h', s)) (hk : HRuns (k a) h' bad Q) :
    HRuns (x >>= k) h bad Q := by
  intro s
  rw [vm_bind, hx s]
  exact hk s

theorem runs_readArr {k : List Slot → VM σ β} {h : Heap} {bad : Prop} {a : Addr} {l : List Slot}
    {Q : β → Heap → Prop} (hl : h[a]? = some (.arr l)) (hk : HRuns (k l) h bad Q) :
    HRuns (readArr a >>= k) h bad Q := runs_step (fun s => readArr_ok hl s) hk

theorem runs_alloc {k : Addr → VM σ β} {h : Heap} {bad : Prop} {l : List Slot}
    {Q : β → Heap → Prop} (hk : HRuns (k h.length) (h ++ [.arr l]) bad Q) :
    HRuns (allocArr l >>= k) h bad Q := runs_step (fun s => allocArr_app l h s) hk

theorem runs_node {h : Heap} {bad : Prop} {n : Node} {Q : Ptr → Heap → Prop}
    (hq : Q (some h.length) (h ++ [.node n])) : HRuns (allocNode n : VM σ Ptr) h bad Q :=
  runs_exact (fun s => allocNode_app n h s) hq

theorem runs_write {k : Unit → VM σ β} {h : Heap} {bad : Prop} {a : Addr} {i : Nat} {x : Slot}
    {l : List Slot} {Q : β → Heap → Prop} (hl : h[a]? = some (.arr l)) (hi : i < l.length)
    (hk : HRuns (k ()) (h.set a (.arr (l.set i x))) bad Q) :
    HRuns (writeSlot a i x >>= k) h bad Q := by
  refine runs_step (fun s => ?_) hk
  unfold writeSlot
  rw [hl]
  simp only
  rw [if_pos hi]

/-! ### what is known -/

/-- The second knows what the first knows. -/
def Known.Le (m m' : Known) : Prop := ∀ a c, m a = some c → m' a = some c

theorem Known.Le.refl (m : Known) : m.Le m := fun _ _ h => h
theorem Known.Le.trans {m m' m'' : Known} (h1 : m.Le m') (h2 : m'.Le m'') : m.Le m'' :=
  fun a c h => h2 a c (h1 a c h)

theorem Known.Of.lt {m : Known} {h : Heap} (ho : m.Of h) {a : Addr} {c : Cell} (hm : m a = some c) :
    a < h.length := by
  have := ho a c hm
  rcases Nat.lt_or_ge a h.length with h1 | h1
  · exact h1
  · rw [List.getElem?_eq_none h1] at this; cases this

theorem Extends.length_le {h h' : Heap} (he : Extends h h') : h.length ≤ h'.length := by
  obtain ⟨t, rfl⟩ := he
  simp

/-- Where the work has got to: started from `m0` and `h0`, now `m` is known and memory is `h`. -/
structure Work (m0 : Known) (h0 : Heap) (m : Known) (h : Heap) : Prop where
  of : m.Of h
  le : m0.Le m
  fresh : ∀ a c, m a = some c → (m0 a).isSome ∨ h0.length ≤ a
  ext : Extends h0 h

theorem Work.start {m : Known} {h : Heap} (ho : m.Of h) : Work m h m h :=
  ⟨ho, .refl m, fun a c hc => .inl (by simp [hc]), .refl h⟩

theorem after_of {m : Known} {h h' : Heap} : (m.after h h').Of h' := by
  intro a c hc
  unfold Known.after at hc
  split at hc
  · exact hc
  · cases hc

theorem after_new {m : Known} {h h' : Heap} {a : Addr} {c : Cell} (ha : h.length ≤ a)
    (hc : h'[a]? = some c) : m.after h h' a = some c := by
  unfold Known.after
  rw [if_pos (.inr ha)]
  exact hc

/-- a cell that is not known stays so -/
theorem after_hidden {m : Known} {h h' : Heap} {a : Addr} (ha : a < h.length) (hm : m a = none) :
    m.after h h' a = none := by
  unfold Known.after
  rw [if_neg]
  simp [hm]
  omega

theorem Work.le_after {m0 m : Known} {h0 h h' : Heap} (w : Work m0 h0 m h) (he : Extends h h') :
    m.Le (m0.after h0 h') := by
  intro a c hc
  unfold Known.after
  rw [if_pos (w.fresh a c hc)]
  exact he.get (w.of a c hc)

/-- a visitor was called -/
theorem Work.call {m0 m : Known} {h0 h h' : Heap} (w : Work m0 h0 m h) (he : Extends h h') :
    Work m0 h0 (m.after h h') h' ∧ m.Le (m.after h h') := by
  have hle : m.Le (m.after h h') := (Work.start w.of).le_after he
  refine ⟨⟨after_of, w.le.trans hle, ?_, w.ext.trans he⟩, hle⟩
  intro a c hc
  unfold Known.after at hc
  split at hc
  · rename_i h1
    rcases h1 with h1 | h1
    · obtain ⟨d, hd⟩ := Option.isSome_iff_exists.1 h1
      exact w.fresh a d hd
    · exact .inr (Nat.le_trans w.ext.length_le h1)
  · cases hc

/-- a cell was allocated -/
theorem Work.alloc {m0 m : Known} {h0 h : Heap} (w : Work m0 h0 m h) (t : Heap) :
    Work m0 h0 m (h ++ t) :=
  ⟨fun a c hc => (Extends.app h t).get (w.of a c hc), w.le, w.fresh, w.ext.trans (.app h t)⟩

/-- a cell nobody knows was written -/
theorem Work.write {m0 m : Known} {h0 h : Heap} (w : Work m0 h0 m h) {a : Addr} (c : Cell)
    (hm : m a = none) (ha : h0.length ≤ a) : Work m0 h0 m (h.set a c) := by
  refine ⟨?_, w.le, w.fresh, ?_⟩
  · intro b d hd
    by_cases hb : a = b
    · subst hb; rw [hm] at hd; cases hd
    · rw [List.getElem?_set_ne hb]; exact w.of b d hd
  · refine extends_of_frame fun b hb => ?_
    rw [List.getElem?_set_ne (by omega)]
    obtain ⟨t, rfl⟩ := w.ext
    rw [List.getElem?_append_left hb]

/-- a new cell becomes known -/
theorem Work.reveal {m0 m : Known} {h0 h : Heap} (w : Work m0 h0 m h) {a : Addr} {c : Cell}
    (hm : m a = none) (ha : h0.length ≤ a) (hc : h[a]? = some c) :
    Work m0 h0 (fun b => if b = a then some c else m b) h ∧
      m.Le (fun b => if b = a then some c else m b) := by
  have hle : m.Le (fun b => if b = a then some c else m b) := by
    intro b d hd
    by_cases hb : b = a
    · subst hb; rw [hm] at hd; cases hd
    · simp [hb, hd]
  refine ⟨⟨?_, w.le.trans hle, ?_, w.ext⟩, hle⟩
  · intro b d hd
    by_cases hb : b = a
    · subst hb; simp at hd; subst hd; exact hc
    · simp [hb] at hd; exact w.of b d hd
  · intro b d hd
    by_cases hb : b = a
    · subst hb; exact .inr ha
    · simp [hb] at hd; exact w.fresh b d hd

/-! ### trees in memory -/

mutual
theorem inMem_mono {tag : String → EArg} {m m' : Known} (hm : m.Le m') :
    ∀ (e : Expr) (p : Ptr), InMem tag m e p → InMem tag m' e p
  | .nil, _ => by simp only [InMem]; exact id
  | .lit _, _ => by
      simp only [InMem]; rintro ⟨a, rfl, h⟩; exact ⟨a, rfl, hm _ _ h⟩
  | .fieldRef root _ _, _ => by
      simp only [InMem]; rintro ⟨a, r, rfl, h, h1⟩
      exact ⟨a, r, rfl, hm _ _ h, rootInMem_mono hm root r h1⟩
  | .ifThen ifs els, _ => by
      simp only [InMem]; rintro ⟨a, b, l, q, rfl, h, h1, h2, h3⟩
      exact ⟨a, b, l, q, rfl, hm _ _ h, hm _ _ h1, pairsInMem_mono hm ifs l h2,
        inMem_mono hm els q h3⟩
  | .cast _ e _, _ => by
      simp only [InMem]; rintro ⟨a, q, rfl, h, h1⟩
      exact ⟨a, q, rfl, hm _ _ h, inMem_mono hm e q h1⟩
  | .dynParam _ _, _ => by
      simp only [InMem]; rintro ⟨a, rfl, h⟩; exact ⟨a, rfl, hm _ _ h⟩
  | .switch e cases els, _ => by
      simp only [InMem]; rintro ⟨a, b, l, q, r, rfl, h, h1, h2, h3, h4⟩
      exact ⟨a, b, l, q, r, rfl, hm _ _ h, hm _ _ h1, inMem_mono hm e q h2,
        casesInMem_mono hm cases l h3, inMem_mono hm els r h4⟩
  | .singularOr e os, _ => by
      simp only [InMem]; rintro ⟨a, b, l, q, rfl, h, h1, h2, h3⟩
      exact ⟨a, b, l, q, rfl, hm _ _ h, hm _ _ h1, inMem_mono hm e q h2, listInMem_mono hm os l h3⟩
  | .multiOr es os, _ => by
      simp only [InMem]; rintro ⟨a, b, c, l, ls, rfl, h, h1, h2, h3, h4⟩
      exact ⟨a, b, c, l, ls, rfl, hm _ _ h, hm _ _ h1, hm _ _ h2, listInMem_mono hm es l h3,
        rowsInMem_mono hm os ls h4⟩
  | .mapE _ _ kvs, _ => by
      simp only [InMem]; rintro ⟨a, b, l, rfl, h, h1, h2⟩
      exact ⟨a, b, l, rfl, hm _ _ h, hm _ _ h1, pairsInMem_mono hm kvs l h2⟩
  | .structE _ _ es, _ => by
      simp only [InMem]; rintro ⟨a, b, l, rfl, h, h1, h2⟩
      exact ⟨a, b, l, rfl, hm _ _ h, hm _ _ h1, listInMem_mono hm es l h2⟩
  | .listE _ _ es, _ => by
      simp only [InMem]; rintro ⟨a, b, l, rfl, h, h1, h2⟩
      exact ⟨a, b, l, rfl, hm _ _ h, hm _ _ h1, listInMem_mono hm es l h2⟩
  | .scalar _ args, _ => by
      simp only [InMem]; rintro ⟨a, b, l, rfl, h, h1, h2⟩
      exact ⟨a, b, l, rfl, hm _ _ h, hm _ _ h1, argsInMem_mono hm args l h2⟩
  | .window _ _ args sorts parts, _ => by
      simp only [InMem]; rintro ⟨a, b, c, d, l, ls, lp, rfl, h, h1, h2, h3, h4, h5, h6⟩
      exact ⟨a, b, c, d, l, ls, lp, rfl, hm _ _ h, hm _ _ h1, hm _ _ h2, hm _ _ h3,
        argsInMem_mono hm args l h4, sortsInMem_mono hm sorts ls h5, listInMem_mono hm parts lp h6⟩
  | .lambda _ _ _ e, _ => by
      simp only [InMem]; rintro ⟨a, q, rfl, h, h1⟩
      exact ⟨a, q, rfl, hm _ _ h, inMem_mono hm e q h1⟩
  | .scalarSubquery _, _ => by
      simp only [InMem]; rintro ⟨a, rfl, h⟩; exact ⟨a, rfl, hm _ _ h⟩
  | .inPredicate es _, _ => by
      simp only [InMem]; rintro ⟨a, b, l, rfl, h, h1, h2⟩
      exact ⟨a, b, l, rfl, hm _ _ h, hm _ _ h1, listInMem_mono hm es l h2⟩
  | .setPredicate _ _, _ => by
      simp only [InMem]; rintro ⟨a, rfl, h⟩; exact ⟨a, rfl, hm _ _ h⟩
  | .setComparison _ _ e _, _ => by
      simp only [InMem]; rintro ⟨a, q, rfl, h, h1⟩
      exact ⟨a, q, rfl, hm _ _ h, inMem_mono hm e q h1⟩
theorem rootInMem_mono {tag : String → EArg} {m m' : Known} (hm : m.Le m') :
    ∀ (r : ERoot) (v : VRoot), RootInMem tag m r v → RootInMem tag m' r v
  | .rootReference, _ => by simp only [RootInMem]; exact id
  | .outer _, _ => by simp only [RootInMem]; exact id
  | .lambdaParam _, _ => by simp only [RootInMem]; exact id
  | .expr e, _ => by
      simp only [RootInMem]; rintro ⟨a, rfl, h⟩; exact ⟨a, rfl, inMem_mono hm e _ h⟩
theorem listInMem_mono {tag : String → EArg} {m m' : Known} (hm : m.Le m') :
    ∀ (es : List Expr) (l : List Slot), ListInMem tag m es l → ListInMem tag m' es l
  | [], _ => by simp only [ListInMem]; exact id
  | e :: es, _ => by
      simp only [ListInMem]; rintro ⟨p, xs, rfl, h, h1⟩
      exact ⟨p, xs, rfl, inMem_mono hm e p h, listInMem_mono hm es xs h1⟩
theorem pairsInMem_mono {tag : String → EArg} {m m' : Known} (hm : m.Le m') :
    ∀ (es : List EPair) (l : List Slot), PairsInMem tag m es l → PairsInMem tag m' es l
  | [], _ => by simp only [PairsInMem]; exact id
  | .mk a b :: es, _ => by
      simp only [PairsInMem]; rintro ⟨p, q, xs, rfl, h, h1, h2⟩
      exact ⟨p, q, xs, rfl, inMem_mono hm a p h, inMem_mono hm b q h1, pairsInMem_mono hm es xs h2⟩
theorem casesInMem_mono {tag : String → EArg} {m m' : Known} (hm : m.Le m') :
    ∀ (es : List ECase) (l : List Slot), CasesInMem tag m es l → CasesInMem tag m' es l
  | [], _ => by simp only [CasesInMem]; exact id
  | .mk _ b :: es, _ => by
      simp only [CasesInMem]; rintro ⟨p, q, xs, rfl, h, h1, h2⟩
      exact ⟨p, q, xs, rfl, hm _ _ h, inMem_mono hm b q h1, casesInMem_mono hm es xs h2⟩
theorem rowsInMem_mono {tag : String → EArg} {m m' : Known} (hm : m.Le m') :
    ∀ (es : List ERow) (l : List Slot), RowsInMem tag m es l → RowsInMem tag m' es l
  | [], _ => by simp only [RowsInMem]; exact id
  | .mk es :: rs, _ => by
      simp only [RowsInMem]; rintro ⟨r, xs, rfl, h, h1⟩
      refine ⟨r, xs, rfl, ?_, rowsInMem_mono hm rs xs h1⟩
      rcases h with h | ⟨a, ys, h2, h3, h4⟩
      · exact .inl h
      · exact .inr ⟨a, ys, h2, hm _ _ h3, listInMem_mono hm es ys h4⟩
theorem argsInMem_mono {tag : String → EArg} {m m' : Known} (hm : m.Le m') :
    ∀ (es : List EArg) (l : List Slot), ArgsInMem tag m es l → ArgsInMem tag m' es l
  | [], _ => by simp only [ArgsInMem]; exact id
  | .expr e :: es, _ => by
      simp only [ArgsInMem]; rintro ⟨p, xs, rfl, h, h1⟩
      exact ⟨p, xs, rfl, inMem_mono hm e _ h, argsInMem_mono hm es xs h1⟩
  | .nil :: es, _ => by
      simp only [ArgsInMem]; rintro ⟨p, xs, rfl, h, h1⟩; exact ⟨p, xs, rfl, h, argsInMem_mono hm es xs h1⟩
  | .type _ :: es, _ => by
      simp only [ArgsInMem]; rintro ⟨p, xs, rfl, h, h1⟩; exact ⟨p, xs, rfl, h, argsInMem_mono hm es xs h1⟩
  | .enum _ :: es, _ => by
      simp only [ArgsInMem]; rintro ⟨p, xs, rfl, h, h1⟩; exact ⟨p, xs, rfl, h, argsInMem_mono hm es xs h1⟩
theorem sortsInMem_mono {tag : String → EArg} {m m' : Known} (hm : m.Le m') :
    ∀ (es : List ESort) (l : List Slot), SortsInMem tag m es l → SortsInMem tag m' es l
  | [], _ => by simp only [SortsInMem]; exact id
  | .mk e _ :: es, _ => by
      simp only [SortsInMem]; rintro ⟨p, xs, rfl, h, h1⟩
      exact ⟨p, xs, rfl, inMem_mono hm e p h, sortsInMem_mono hm es xs h1⟩
end

/-- What an expression is of which the node is known. -/
def NodeIs (tag : String → EArg) (m : Known) : Node → Expr → Prop
  | .literal l, e => e = .lit l
  | .fieldRef r ref t, e => ∃ root, e = .fieldRef root ref t ∧ RootInMem tag m root r
  | .ifThen b q, e => ∃ ifs els l, e = .ifThen ifs els ∧ m b = some (.arr l) ∧
      PairsInMem tag m ifs l ∧ InMem tag m els q
  | .cast ty q fail, e => ∃ x, e = .cast ty x fail ∧ InMem tag m x q
  | .dynParam ty ref, e => e = .dynParam ty ref
  | .switch q b r, e => ∃ x cs els l, e = .switch x cs els ∧ m b = some (.arr l) ∧
      InMem tag m x q ∧ CasesInMem tag m cs l ∧ InMem tag m els r
  | .singularOr q b, e => ∃ x os l, e = .singularOr x os ∧ m b = some (.arr l) ∧ InMem tag m x q ∧
      ListInMem tag m os l
  | .multiOr b c, e => ∃ es os l ls, e = .multiOr es os ∧ m b = some (.arr l) ∧
      m c = some (.arr ls) ∧ ListInMem tag m es l ∧ RowsInMem tag m os ls
  | .mapE n v b, e => ∃ es l, e = .mapE n v es ∧ m b = some (.arr l) ∧ PairsInMem tag m es l
  | .structE n v b, e => ∃ es l, e = .structE n v es ∧ m b = some (.arr l) ∧ ListInMem tag m es l
  | .listE n v b, e => ∃ es l, e = .listE n v es ∧ m b = some (.arr l) ∧ ListInMem tag m es l
  | .scalar f b, e => ∃ es l, e = .scalar f es ∧ m b = some (.arr l) ∧ ArgsInMem tag m es l
  | .window f w b c d, e => ∃ es ss ps l ls lp, e = .window f w es ss ps ∧ m b = some (.arr l) ∧
      m c = some (.arr ls) ∧ m d = some (.arr lp) ∧ ArgsInMem tag m es l ∧
      SortsInMem tag m ss ls ∧ ListInMem tag m ps lp
  | .lambda t q, e => ∃ n v ts x, t = .struct n v ts ∧ e = .lambda n v ts x ∧ InMem tag m x q
  | .scalarSubquery r, e => e = .scalarSubquery r
  | .inPredicate b r, e => ∃ es l, e = .inPredicate es r ∧ m b = some (.arr l) ∧ ListInMem tag m es l
  | .setPredicate op r, e => e = .setPredicate op r
  | .setComparison red op q r, e => ∃ x, e = .setComparison red op x r ∧ InMem tag m x q

theorem inMem_node {tag : String → EArg} {m : Known} {e : Expr} {p : Ptr} (h : InMem tag m e p) :
    (p = none ∧ e = .nil) ∨ ∃ a n, p = some a ∧ m a = some (.node n) ∧ NodeIs tag m n e := by
  cases e <;> simp only [InMem] at h
  · exact .inl ⟨h, rfl⟩
  · obtain ⟨a, rfl, h⟩ := h; exact .inr ⟨a, _, rfl, h, rfl⟩
  · obtain ⟨a, r, rfl, h, h1⟩ := h; exact .inr ⟨a, _, rfl, h, _, rfl, h1⟩
  · obtain ⟨a, b, l, q, rfl, h, h1, h2, h3⟩ := h; exact .inr ⟨a, _, rfl, h, _, _, l, rfl, h1, h2, h3⟩
  · obtain ⟨a, q, rfl, h, h1⟩ := h; exact .inr ⟨a, _, rfl, h, _, rfl, h1⟩
  · obtain ⟨a, rfl, h⟩ := h; exact .inr ⟨a, _, rfl, h, rfl⟩
  · obtain ⟨a, b, l, q, r, rfl, h, h1, h2, h3, h4⟩ := h
    exact .inr ⟨a, _, rfl, h, _, _, _, l, rfl, h1, h2, h3, h4⟩
  · obtain ⟨a, b, l, q, rfl, h, h1, h2, h3⟩ := h; exact .inr ⟨a, _, rfl, h, _, _, l, rfl, h1, h2, h3⟩
  · obtain ⟨a, b, c, l, ls, rfl, h, h1, h2, h3, h4⟩ := h
    exact .inr ⟨a, _, rfl, h, _, _, l, ls, rfl, h1, h2, h3, h4⟩
  · obtain ⟨a, b, l, rfl, h, h1, h2⟩ := h; exact .inr ⟨a, _, rfl, h, _, l, rfl, h1, h2⟩
  · obtain ⟨a, b, l, rfl, h, h1, h2⟩ := h; exact .inr ⟨a, _, rfl, h, _, l, rfl, h1, h2⟩
  · obtain ⟨a, b, l, rfl, h, h1, h2⟩ := h; exact .inr ⟨a, _, rfl, h, _, l, rfl, h1, h2⟩
  · obtain ⟨a, b, l, rfl, h, h1, h2⟩ := h; exact .inr ⟨a, _, rfl, h, _, l, rfl, h1, h2⟩
  · obtain ⟨a, b, c, d, l, ls, lp, rfl, h, h1, h2, h3, h4, h5, h6⟩ := h
    exact .inr ⟨a, _, rfl, h, _, _, _, l, ls, lp, rfl, h1, h2, h3, h4, h5, h6⟩
  · obtain ⟨a, q, rfl, h, h1⟩ := h; exact .inr ⟨a, _, rfl, h, _, _, _, _, rfl, rfl, h1⟩
  · obtain ⟨a, rfl, h⟩ := h; exact .inr ⟨a, _, rfl, h, rfl⟩
  · obtain ⟨a, b, l, rfl, h, h1, h2⟩ := h; exact .inr ⟨a, _, rfl, h, _, l, rfl, h1, h2⟩
  · obtain ⟨a, rfl, h⟩ := h; exact .inr ⟨a, _, rfl, h, rfl⟩
  · obtain ⟨a, q, rfl, h, h1⟩ := h; exact .inr ⟨a, _, rfl, h, _, rfl, h1⟩

theorem nodeIs_of {tag : String → EArg} {m : Known} {e : Expr} {a : Addr} {n : Node}
    (hn : m a = some (.node n)) (h : InMem tag m e (some a)) : NodeIs tag m n e := by
  rcases inMem_node h with ⟨h, -⟩ | ⟨b, n', h1, h2, h3⟩
  · cases h
  · cases h1; rw [hn] at h2; cases h2; exact h3

theorem inMem_of_nodeIs {tag : String → EArg} {m : Known} {e : Expr} {a : Addr} {n : Node}
    (hn : m a = some (.node n)) (h : NodeIs tag m n e) : InMem tag m e (some a) := by
  cases n <;> simp only [NodeIs] at h
  · subst h; simp only [InMem]; exact ⟨a, rfl, hn⟩
  · obtain ⟨_, rfl, h1⟩ := h; simp only [InMem]; exact ⟨a, _, rfl, hn, h1⟩
  · obtain ⟨_, _, l, rfl, h1, h2, h3⟩ := h; simp only [InMem]; exact ⟨a, _, l, _, rfl, hn, h1, h2, h3⟩
  · obtain ⟨_, rfl, h1⟩ := h; simp only [InMem]; exact ⟨a, _, rfl, hn, h1⟩
  · subst h; simp only [InMem]; exact ⟨a, rfl, hn⟩
  · obtain ⟨_, _, _, l, rfl, h1, h2, h3, h4⟩ := h; simp only [InMem]
    exact ⟨a, _, l, _, _, rfl, hn, h1, h2, h3, h4⟩
  · obtain ⟨_, _, l, rfl, h1, h2, h3⟩ := h; simp only [InMem]; exact ⟨a, _, l, _, rfl, hn, h1, h2, h3⟩
  · obtain ⟨_, _, l, ls, rfl, h1, h2, h3, h4⟩ := h; simp only [InMem]
    exact ⟨a, _, _, l, ls, rfl, hn, h1, h2, h3, h4⟩
  · obtain ⟨_, l, rfl, h1, h2⟩ := h; simp only [InMem]; exact ⟨a, _, l, rfl, hn, h1, h2⟩
  · obtain ⟨_, l, rfl, h1, h2⟩ := h; simp only [InMem]; exact ⟨a, _, l, rfl, hn, h1, h2⟩
  · obtain ⟨_, l, rfl, h1, h2⟩ := h; simp only [InMem]; exact ⟨a, _, l, rfl, hn, h1, h2⟩
  · obtain ⟨_, l, rfl, h1, h2⟩ := h; simp only [InMem]; exact ⟨a, _, l, rfl, hn, h1, h2⟩
  · obtain ⟨_, _, _, l, ls, lp, rfl, h1, h2, h3, h4, h5, h6⟩ := h; simp only [InMem]
    exact ⟨a, _, _, _, l, ls, lp, rfl, hn, h1, h2, h3, h4, h5, h6⟩
  · obtain ⟨_, _, _, _, rfl, rfl, h1⟩ := h; simp only [InMem]; exact ⟨a, _, rfl, hn, h1⟩
  · subst h; simp only [InMem]; exact ⟨a, rfl, hn⟩
  · obtain ⟨_, l, rfl, h1, h2⟩ := h; simp only [InMem]; exact ⟨a, _, l, rfl, hn, h1, h2⟩
  · subst h; simp only [InMem]; exact ⟨a, rfl, hn⟩
  · obtain ⟨_, rfl, h1⟩ := h; simp only [InMem]; exact ⟨a, _, rfl, hn, h1⟩

theorem arr_unique {m : Known} {b : Addr} {l l' : List Slot} (h : m b = some (.arr l))
    (h' : m b = some (.arr l')) : l = l' := by
  rw [h] at h'; cases h'; rfl

mutual
theorem inMem_unique {tag : String → EArg} {m : Known} :
    ∀ (e e' : Expr) (p : Ptr), InMem tag m e p → InMem tag m e' p → e' = e
  | .nil, e', _ => by
      simp only [InMem]; rintro rfl h'
      rcases inMem_node h' with ⟨-, h⟩ | ⟨_, _, h, -⟩
      · exact h
      · cases h
  | .lit _, e', _ => by
      simp only [InMem]; rintro ⟨a, rfl, h⟩ h'
      exact nodeIs_of h h'
  | .fieldRef root _ _, e', _ => by
      simp only [InMem]; rintro ⟨a, r, rfl, h, h1⟩ h'
      obtain ⟨_, rfl, h2⟩ := nodeIs_of h h'
      rw [rootInMem_unique root _ r h1 h2]
  | .ifThen ifs els, e', _ => by
      simp only [InMem]; rintro ⟨a, b, l, q, rfl, h, h1, h2, h3⟩ h'
      obtain ⟨_, _, _, rfl, k1, k2, k3⟩ := nodeIs_of h h'
      cases arr_unique h1 k1
      rw [pairsInMem_unique ifs _ l h2 k2, inMem_unique els _ q h3 k3]
  | .cast _ e _, e', _ => by
      simp only [InMem]; rintro ⟨a, q, rfl, h, h1⟩ h'
      obtain ⟨_, rfl, k1⟩ := nodeIs_of h h'
      rw [inMem_unique e _ q h1 k1]
  | .dynParam _ _, e', _ => by
      simp only [InMem]; rintro ⟨a, rfl, h⟩ h'
      exact nodeIs_of h h'
  | .switch e cases els, e', _ => by
      simp only [InMem]; rintro ⟨a, b, l, q, r, rfl, h, h1, h2, h3, h4⟩ h'
      obtain ⟨_, _, _, _, rfl, k1, k2, k3, k4⟩ := nodeIs_of h h'
      obtain rfl := arr_unique h1 k1
      rw [inMem_unique e _ q h2 k2, casesInMem_unique cases _ l h3 k3, inMem_unique els _ r h4 k4]
  | .singularOr e os, e', _ => by
      simp only [InMem]; rintro ⟨a, b, l, q, rfl, h, h1, h2, h3⟩ h'
      obtain ⟨_, _, _, rfl, k1, k2, k3⟩ := nodeIs_of h h'
      cases arr_unique h1 k1
      rw [inMem_unique e _ q h2 k2, listInMem_unique os _ l h3 k3]
  | .multiOr es os, e', _ => by
      simp only [InMem]; rintro ⟨a, b, c, l, ls, rfl, h, h1, h2, h3, h4⟩ h'
      obtain ⟨_, _, _, _, rfl, k1, k2, k3, k4⟩ := nodeIs_of h h'
      cases arr_unique h1 k1
      cases arr_unique h2 k2
      rw [listInMem_unique es _ l h3 k3, rowsInMem_unique os _ ls h4 k4]
  | .mapE _ _ kvs, e', _ => by
      simp only [InMem]; rintro ⟨a, b, l, rfl, h, h1, h2⟩ h'
      obtain ⟨_, _, rfl, k1, k2⟩ := nodeIs_of h h'
      cases arr_unique h1 k1
      rw [pairsInMem_unique kvs _ l h2 k2]
  | .structE _ _ es, e', _ => by
      simp only [InMem]; rintro ⟨a, b, l, rfl, h, h1, h2⟩ h'
      obtain ⟨_, _, rfl, k1, k2⟩ := nodeIs_of h h'
      cases arr_unique h1 k1
      rw [listInMem_unique es _ l h2 k2]
  | .listE _ _ es, e', _ => by
      simp only [InMem]; rintro ⟨a, b, l, rfl, h, h1, h2⟩ h'
      obtain ⟨_, _, rfl, k1, k2⟩ := nodeIs_of h h'
      cases arr_unique h1 k1
      rw [listInMem_unique es _ l h2 k2]
  | .scalar _ args, e', _ => by
      simp only [InMem]; rintro ⟨a, b, l, rfl, h, h1, h2⟩ h'
      obtain ⟨_, _, rfl, k1, k2⟩ := nodeIs_of h h'
      cases arr_unique h1 k1
      rw [argsInMem_unique args _ l h2 k2]
  | .window _ _ args sorts parts, e', _ => by
      simp only [InMem]; rintro ⟨a, b, c, d, l, ls, lp, rfl, h, h1, h2, h3, h4, h5, h6⟩ h'
      obtain ⟨_, _, _, _, _, _, rfl, k1, k2, k3, k4, k5, k6⟩ := nodeIs_of h h'
      cases arr_unique h1 k1
      cases arr_unique h2 k2
      cases arr_unique h3 k3
      rw [argsInMem_unique args _ l h4 k4, sortsInMem_unique sorts _ ls h5 k5,
        listInMem_unique parts _ lp h6 k6]
  | .lambda _ _ _ e, e', _ => by
      simp only [InMem]; rintro ⟨a, q, rfl, h, h1⟩ h'
      obtain ⟨_, _, _, _, h2, rfl, k1⟩ := nodeIs_of h h'
      cases h2
      rw [inMem_unique e _ q h1 k1]
  | .scalarSubquery _, e', _ => by
      simp only [InMem]; rintro ⟨a, rfl, h⟩ h'
      exact nodeIs_of h h'
  | .inPredicate es _, e', _ => by
      simp only [InMem]; rintro ⟨a, b, l, rfl, h, h1, h2⟩ h'
      obtain ⟨_, _, rfl, k1, k2⟩ := nodeIs_of h h'
      cases arr_unique h1 k1
      rw [listInMem_unique es _ l h2 k2]
  | .setPredicate _ _, e', _ => by
      simp only [InMem]; rintro ⟨a, rfl, h⟩ h'
      exact nodeIs_of h h'
  | .setComparison _ _ e _, e', _ => by
      simp only [InMem]; rintro ⟨a, q, rfl, h, h1⟩ h'
      obtain ⟨_, rfl, k1⟩ := nodeIs_of h h'
      rw [inMem_unique e _ q h1 k1]
theorem rootInMem_unique {tag : String → EArg} {m : Known} :
    ∀ (e e' : ERoot) (p : VRoot), RootInMem tag m e p → RootInMem tag m e' p → e' = e
  | .rootReference, e', _ => by
      simp only [RootInMem]; rintro rfl h'; cases e' <;> simp [RootInMem] at h' ⊢
  | .outer _, e', _ => by
      simp only [RootInMem]; rintro rfl h'; cases e' <;> simp [RootInMem] at h' ⊢
      exact h'.symm
  | .lambdaParam _, e', _ => by
      simp only [RootInMem]; rintro rfl h'; cases e' <;> simp [RootInMem] at h' ⊢
      exact h'.symm
  | .expr e, e', _ => by
      simp only [RootInMem]; rintro ⟨a, rfl, h⟩ h'; cases e' <;> simp [RootInMem] at h' ⊢
      exact inMem_unique e _ _ h h'
theorem listInMem_unique {tag : String → EArg} {m : Known} :
    ∀ (es es' : List Expr) (l : List Slot), ListInMem tag m es l → ListInMem tag m es' l → es' = es
  | [], es', _ => by
      simp only [ListInMem]; rintro rfl h'; cases es' <;> simp [ListInMem] at h' ⊢
  | e :: es, es', _ => by
      simp only [ListInMem]; rintro ⟨p, xs, rfl, h, h1⟩ h'
      cases es' <;> simp [ListInMem] at h' ⊢
      exact ⟨inMem_unique e _ p h h'.1, listInMem_unique es _ xs h1 h'.2⟩
theorem pairsInMem_unique {tag : String → EArg} {m : Known} :
    ∀ (es es' : List EPair) (l : List Slot), PairsInMem tag m es l → PairsInMem tag m es' l → es' = es
  | [], es', _ => by
      simp only [PairsInMem]; rintro rfl h'
      rcases es' with _ | ⟨⟨⟩, _⟩ <;> simp [PairsInMem] at h' ⊢
  | .mk a b :: es, es', _ => by
      simp only [PairsInMem]; rintro ⟨p, q, xs, rfl, h, h1, h2⟩ h'
      rcases es' with _ | ⟨⟨⟩, _⟩ <;> simp [PairsInMem] at h' ⊢
      exact ⟨⟨inMem_unique a _ p h h'.1, inMem_unique b _ q h1 h'.2.1⟩,
        pairsInMem_unique es _ xs h2 h'.2.2⟩
theorem casesInMem_unique {tag : String → EArg} {m : Known} :
    ∀ (es es' : List ECase) (l : List Slot), CasesInMem tag m es l → CasesInMem tag m es' l → es' = es
  | [], es', _ => by
      simp only [CasesInMem]; rintro rfl h'
      rcases es' with _ | ⟨⟨⟩, _⟩ <;> simp [CasesInMem] at h' ⊢
  | .mk a b :: es, es', _ => by
      simp only [CasesInMem]; rintro ⟨p, q, xs, rfl, h, h1, h2⟩ h'
      rcases es' with _ | ⟨⟨⟩, _⟩ <;> simp [CasesInMem, h] at h' ⊢
      exact ⟨⟨h'.1.symm, inMem_unique b _ q h1 h'.2.1⟩, casesInMem_unique es _ xs h2 h'.2.2⟩
theorem rowsInMem_unique {tag : String → EArg} {m : Known} :
    ∀ (es es' : List ERow) (l : List Slot), RowsInMem tag m es l → RowsInMem tag m es' l → es' = es
  | [], es', _ => by
      simp only [RowsInMem]; rintro rfl h'
      rcases es' with _ | ⟨⟨⟩, _⟩ <;> simp [RowsInMem] at h' ⊢
  | .mk es :: rs, es', _ => by
      simp only [RowsInMem]; rintro ⟨r, xs, rfl, h, h1⟩ h'
      rcases es' with _ | ⟨⟨es'⟩, rs'⟩
      · simp [RowsInMem] at h'
      simp only [RowsInMem] at h'
      obtain ⟨r', xs', hr, h', h1'⟩ := h'
      cases hr
      rw [rowsInMem_unique rs _ xs h1 h1']
      suffices es' = es by rw [this]
      rcases h with ⟨rfl, rfl⟩ | ⟨a, ys, rfl, k1, k2⟩
      · simpa using h'
      · rcases h' with ⟨h', -⟩ | ⟨a', ys', h', k1', k2'⟩
        · cases h'
        · cases h'
          cases arr_unique k1 k1'
          exact listInMem_unique es _ ys k2 k2'
theorem argsInMem_unique {tag : String → EArg} {m : Known} :
    ∀ (es es' : List EArg) (l : List Slot), ArgsInMem tag m es l → ArgsInMem tag m es' l → es' = es
  | [], es', _ => by
      simp only [ArgsInMem]; rintro rfl h'
      rcases es' with _ | ⟨⟨⟩, _⟩ <;> simp [ArgsInMem] at h' ⊢
  | .expr e :: es, es', _ => by
      simp only [ArgsInMem]; rintro ⟨p, xs, rfl, h, h1⟩ h'
      rcases es' with _ | ⟨⟨⟩, _⟩ <;> simp [ArgsInMem] at h' ⊢
      exact ⟨inMem_unique e _ _ h h'.1, argsInMem_unique es _ xs h1 h'.2⟩
  | .nil :: es, es', _ => by
      simp only [ArgsInMem]; rintro ⟨p, xs, rfl, h, h1⟩ h'
      rcases es' with _ | ⟨⟨⟩, _⟩ <;> simp [ArgsInMem, h] at h' ⊢
      exact argsInMem_unique es _ xs h1 h'
  | .type t :: es, es', _ => by
      simp only [ArgsInMem]; rintro ⟨p, xs, rfl, h, h1⟩ h'
      rcases es' with _ | ⟨⟨⟩, _⟩ <;> simp [ArgsInMem, h] at h' ⊢
      exact ⟨h'.1.symm, argsInMem_unique es _ xs h1 h'.2⟩
  | .enum t :: es, es', _ => by
      simp only [ArgsInMem]; rintro ⟨p, xs, rfl, h, h1⟩ h'
      rcases es' with _ | ⟨⟨⟩, _⟩ <;> simp [ArgsInMem, h] at h' ⊢
      exact ⟨h'.1.symm, argsInMem_unique es _ xs h1 h'.2⟩
theorem sortsInMem_unique {tag : String → EArg} {m : Known} :
    ∀ (es es' : List ESort) (l : List Slot), SortsInMem tag m es l → SortsInMem tag m es' l → es' = es
  | [], es', _ => by
      simp only [SortsInMem]; rintro rfl h'
      rcases es' with _ | ⟨⟨⟩, _⟩ <;> simp [SortsInMem] at h' ⊢
  | .mk e k :: es, es', _ => by
      simp only [SortsInMem]; rintro ⟨p, xs, rfl, h, h1⟩ h'
      rcases es' with _ | ⟨⟨e', k'⟩, _⟩
      · simp [SortsInMem] at h'
      simp only [SortsInMem] at h'
      obtain ⟨p', xs', hr, h', h1'⟩ := h'
      cases hr
      rw [inMem_unique e _ p h h', sortsInMem_unique es _ xs h1 h1']
end

end Verif
